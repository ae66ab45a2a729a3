import Verif.Proof.BdsUpdate

/-!
`bds_round`: the authentication path of the next leaf.
-/

namespace Qrl

open Outcome

theorem and_one_eq (x : Nat) : x &&& 1 = x % 2 := Nat.and_one_is_mod x

/-- `tau` is the number of trailing ones of the index. -/
theorem findTau_spec (t h : Nat) (ht : t + 1 < 2 ^ h) (m : Nat) : ∀ i, i + m = h → t % 2 ^ i = 2 ^ i - 1 →
    ∃ q, findTau t h m i < h ∧ t + 1 = 2 ^ (findTau t h m i) * (2 * q + 1) := by
  induction m with
  | zero =>
    intro i hi hm
    exfalso
    rw [show i = h by omega, Nat.mod_eq_of_lt (by omega)] at hm
    omega
  | succ m ih =>
    intro i hi hm
    rw [findTau, and_one_eq, Nat.shiftRight_eq_div_pow]
    by_cases hb : t / 2 ^ i % 2 = 0
    · rw [if_pos hb]
      refine ⟨t / 2 ^ i / 2, by omega, ?_⟩
      have h1 := Nat.div_add_mod t (2 ^ i)
      have h2 : t / 2 ^ i = 2 * (t / 2 ^ i / 2) := by omega
      have hp := Nat.two_pow_pos i
      rw [← h2, Nat.mul_add, Nat.mul_one]
      omega
    · rw [if_neg hb]
      apply ih (i + 1) (by omega)
      rw [Nat.mod_pow_succ, hm, show t / 2 ^ i % 2 = 1 by omega, Nat.pow_succ]
      have hp := Nat.two_pow_pos i
      omega

/-- Arithmetic of one step, with `tau` trailing ones. -/
structure TauFacts (t tau q : Nat) : Prop where
  eq : t + 1 = 2 ^ tau * (2 * q + 1)

namespace TauFacts

variable {t tau q : Nat} (F : TauFacts t tau q)
include F

theorem div_le {i : Nat} (hi : i ≤ tau) : (t + 1) / 2 ^ i = 2 ^ (tau - i) * (2 * q + 1) := by
  have : 2 ^ tau = 2 ^ i * 2 ^ (tau - i) := by rw [← Nat.pow_add]; congr 1; omega
  rw [F.eq, this, Nat.mul_assoc, Nat.mul_div_cancel_left _ (Nat.two_pow_pos i)]

theorem div_lt_even {i : Nat} (hi : i < tau) : (t + 1) / 2 ^ i % 2 = 0 := by
  rw [F.div_le (by omega), show tau - i = (tau - i - 1) + 1 by omega, Nat.pow_succ, Nat.mul_assoc, Nat.mul_left_comm]
  omega

theorem div_tau : (t + 1) / 2 ^ tau = 2 * q + 1 := by
  rw [F.div_le (Nat.le_refl _)]; simp

theorem old_tau : t / 2 ^ tau = 2 * q := by
  have hp := Nat.two_pow_pos tau
  have : t = 2 ^ tau * (2 * q) + (2 ^ tau - 1) := by
    have := F.eq; rw [Nat.mul_add, Nat.mul_one] at this; omega
  rw [this, Nat.mul_add_div hp, Nat.div_eq_of_lt (by omega), Nat.add_zero]

theorem old_pred (h : 0 < tau) : t / 2 ^ (tau - 1) = 4 * q + 1 := by
  have hp := Nat.two_pow_pos (tau - 1)
  have e2 : 2 ^ tau = 2 ^ (tau - 1) * 2 := by rw [← Nat.pow_succ]; congr 1; omega
  have : t = 2 ^ (tau - 1) * (4 * q + 1) + (2 ^ (tau - 1) - 1) := by
    have e := F.eq
    rw [e2] at e
    have : 2 ^ (tau - 1) * 2 * (2 * q + 1) = 2 ^ (tau - 1) * (4 * q + 1) + 2 ^ (tau - 1) := by ring
    omega
  rw [this, Nat.mul_add_div hp, Nat.div_eq_of_lt (by omega), Nat.add_zero]

theorem div_gt {i : Nat} (hi : tau < i) : (t + 1) / 2 ^ i = t / 2 ^ i := by
  obtain ⟨e, rfl⟩ : ∃ e, i = tau + 1 + e := ⟨i - (tau + 1), by omega⟩
  have key : ∀ x, x / 2 ^ (tau + 1 + e) = x / 2 ^ tau / 2 ^ (1 + e) := by
    intro x; rw [Nat.div_div_eq_div_mul, ← Nat.pow_add]; congr 2; omega
  rw [key, key, F.div_tau, F.old_tau, Nat.pow_add, ← Nat.div_div_eq_div_mul, ← Nat.div_div_eq_div_mul]
  congr 1
  omega

theorem dvd_iff {i : Nat} : 2 ^ (i + 1) ∣ t + 1 ↔ i < tau := by
  constructor
  · intro hd
    apply Classical.byContradiction
    intro hc
    have h1 : 2 ^ (tau + 1) ∣ t + 1 := Nat.dvd_trans (Nat.pow_dvd_pow 2 (by omega)) hd
    rw [F.eq, Nat.pow_succ] at h1
    have := Nat.dvd_of_mul_dvd_mul_left (Nat.two_pow_pos tau) h1
    omega
  · intro hi
    rw [F.eq]
    exact Nat.dvd_trans (Nat.pow_dvd_pow 2 (by omega)) (Nat.dvd_mul_right _ _)

/-- Below `tau`, the node asked of instance `i` is the right neighbour on the new path. -/
theorem startOf_old {i : Nat} (hi : i < tau) : startOf i t = t + 1 + 2 ^ i := by
  obtain ⟨z, hz⟩ := F.dvd_iff.mpr hi
  have hp := Nat.two_pow_pos (i + 1)
  have hz0 : 0 < z := by
    rcases Nat.eq_zero_or_pos z with h0 | h0
    · subst h0; simp at hz
    · exact h0
  have e : 2 ^ (i + 1) * z = 2 ^ (i + 1) * (z - 1) + 2 ^ (i + 1) := by
    conv_lhs => rw [show z = (z - 1) + 1 by omega]
    ring
  have ht : t = 2 ^ (i + 1) * (z - 1) + (2 ^ (i + 1) - 1) := by omega
  have hdiv : t / 2 ^ (i + 1) = z - 1 := by
    rw [ht, Nat.mul_add_div hp, Nat.div_eq_of_lt (by omega), Nat.add_zero]
  rw [startOf, hdiv, Nat.mul_comm]
  have e2 : 2 ^ (i + 1) = 2 * 2 ^ i := by ring
  omega

theorem startOf_new {i : Nat} (hi : i < tau) : startOf i (t + 1) = t + 1 + 3 * 2 ^ i := by
  obtain ⟨z, hz⟩ := F.dvd_iff.mpr hi
  rw [startOf, hz, Nat.mul_div_cancel_left _ (Nat.two_pow_pos _), Nat.mul_comm]

theorem startOf_same {i : Nat} (hi : tau ≤ i) : startOf i (t + 1) = startOf i t := by
  rw [startOf, startOf, F.div_gt (by omega)]

theorem startOf_old_div {i : Nat} (hi : i < tau) : startOf i t / 2 ^ i = (t + 1) / 2 ^ i + 1 := by
  rw [F.startOf_old hi, Nat.add_div_right _ (Nat.two_pow_pos i)]

theorem room {i h : Nat} (hi : i < tau) (htau : tau < h) (ht : t + 1 < 2 ^ h) : t + 1 + 2 ^ (i + 1) ≤ 2 ^ h := by
  have e : 2 ^ h = 2 ^ (i + 1) * 2 ^ (h - (i + 1)) := by rw [← Nat.pow_add]; congr 1; omega
  obtain ⟨z, hz⟩ := F.dvd_iff.mpr hi
  rw [hz, e] at ht ⊢
  have hlt : z < 2 ^ (h - (i + 1)) := Nat.lt_of_mul_lt_mul_left ht
  calc 2 ^ (i + 1) * z + 2 ^ (i + 1) = 2 ^ (i + 1) * (z + 1) := by ring
    _ ≤ _ := Nat.mul_le_mul_left _ hlt

end TauFacts

/-- The part of the traversal state with the authentication path. -/
structure AuthInv (N : Nat → Nat → Bytes) (h t : Nat) (st : BdsState) : Prop where
  lauth : st.auth.length = h
  lkeep : st.keep.length = h / 2
  auth : ∀ i, i < h → st.auth[i]? = some (some (N i (Spec.sibling (t / 2 ^ i))))
  keep : ∀ i, i + 1 < h → t / 2 ^ i % 2 = 1 → t / 2 ^ (i + 1) % 2 = 0 → st.keep[i / 2]? = some (some (N i (t / 2 ^ i)))
  retain : st.retain = [some (N (h - 2) 3)]

theorem sibling_even {n : Nat} (h : n % 2 = 0) : Spec.sibling n = n + 1 := by rw [Spec.sibling, if_pos h]

theorem sibling_odd {n : Nat} (h : n % 2 = 1) : Spec.sibling n = n - 1 := by rw [Spec.sibling, if_neg (by omega)]

theorem roundAuth_eq (p : XmssParams) (t tau q : Nat) (F : TauFacts t tau q) (htau : tau < p.h) (hh : 4 ≤ p.h)
    (hh30 : p.h ≤ 30)
    (ht : t + 1 < 2 ^ p.h) (N : Nat → Nat → Bytes) (m : Nat) : ∀ (i : Nat) (st : BdsState), i + m = tau →
      st.auth.length = p.h → st.retain = [some (N (p.h - 2) 3)] →
      (∀ j, j < p.h - 2 → j < tau → ∃ tr, st.treehash[j]? = some tr ∧ tr.node = some (N j ((t + 1) / 2 ^ j + 1))) →
      ∃ auth', roundAuth p t m i st = ok { st with auth := auth' } ∧ auth'.length = p.h ∧
        (∀ j, j < i ∨ tau ≤ j → auth'[j]? = st.auth[j]?) ∧
        (∀ j, i ≤ j → j < tau → auth'[j]? = some (some (N j ((t + 1) / 2 ^ j + 1)))) := by
  induction m with
  | zero =>
    intro i st hi hl _ _
    exact ⟨st.auth, rfl, hl, fun _ _ => rfl, fun j h1 h2 => by omega⟩
  | succ m ih =>
    intro i st hi hl hr hth
    have hcell : ∀ f : Cell → Outcome BdsState, (if i < p.h - 2 then (rd st.treehash i >>= fun t => f t.node)
        else rd st.retain (((((1 <<< (p.h - 1 - i)) + i + sub32 0 p.h) % 2 ^ 32) +
          (sub64 (t >>> i) 1 >>> 1) % 2 ^ 32) % 2 ^ 32) >>= f) = f (some (N i ((t + 1) / 2 ^ i + 1))) := by
      intro f
      by_cases hi2 : i < p.h - 2
      · rw [if_pos hi2]
        obtain ⟨tr, h1, h2⟩ := hth i hi2 (by omega)
        rw [rd_eq_ok h1, ok_bind, h2]
      · rw [if_neg hi2]
        have hie : i = p.h - 2 := by omega
        have htau' : tau = p.h - 1 := by omega
        have hq : q = 0 := by
          have e := F.eq
          have e2 : 2 ^ p.h = 2 ^ tau * 2 := by rw [← Nat.pow_succ]; congr 1; omega
          rw [e, e2] at ht
          have := Nat.lt_of_mul_lt_mul_left ht
          omega
        have hold := F.old_pred (by omega)
        rw [hq, show tau - 1 = i by omega] at hold
        have hnew := F.div_le (i := i) (by omega)
        rw [hq, show tau - i = 1 by omega] at hnew
        have hidx : (((1 <<< (p.h - 1 - i)) + i + sub32 0 p.h) % 2 ^ 32 +
            (sub64 (t >>> i) 1 >>> 1) % 2 ^ 32) % 2 ^ 32 = 0 := by
          rw [Nat.shiftRight_eq_div_pow t i, hold, show p.h - 1 - i = 1 by omega]
          unfold sub32 sub64
          simp only [Nat.shiftLeft_eq, Nat.shiftRight_eq_div_pow]
          omega
        rw [hidx, hr]
        simp only [rd, List.getElem?_cons_zero, ofOption_some, ok_bind]
        rw [hnew, ← hie]
        rfl
    have hstep : roundAuth p t (m + 1) i st = (wr st.auth i (some (N i ((t + 1) / 2 ^ i + 1))) >>= fun auth =>
        roundAuth p t m (i + 1) { st with auth := auth }) := by
      rw [roundAuth]
      exact hcell fun c => wr st.auth i c >>= fun auth => roundAuth p t m (i + 1) { st with auth := auth }
    rw [hstep, wr_eq_ok _ (by omega), ok_bind]
    obtain ⟨auth', e1, e2, e3, e4⟩ := ih (i + 1)
      { st with auth := st.auth.set i (some (N i ((t + 1) / 2 ^ i + 1))) } (by omega) (by simpa using hl) hr hth
    refine ⟨auth', e1, e2, ?_, ?_⟩
    · intro j hj
      rw [e3 j (by omega)]
      simp only
      rw [List.getElem?_set, if_neg (by omega)]
    · intro j h1 h2
      rcases Nat.lt_or_ge i j with h | h
      · exact e4 j (by omega) h2
      · have : j = i := by omega
        subst this
        rw [e3 j (by omega)]
        simp only
        rw [List.getElem?_set, if_pos rfl, if_pos (by omega)]

theorem roundRestart_eq (p : XmssParams) (t tau q : Nat) (F : TauFacts t tau q) (hh : p.h ≤ 30)
    (ht : t + 1 < 2 ^ p.h) (n : Nat) (hn : n ≤ tau) (hn2 : n ≤ p.h - 2) (m : Nat) : ∀ (i : Nat) (st : BdsState),
      i + m = n → st.treehash.length = p.h - 2 →
      ∃ ths, roundRestart p t m i st = ok { st with treehash := ths } ∧ ths.length = p.h - 2 ∧
        (∀ j, j < i ∨ n ≤ j → ths[j]? = st.treehash[j]?) ∧
        (∀ j, i ≤ j → j < n → ∃ tr, st.treehash[j]? = some tr ∧ ths[j]? = some
          (if startOf j (t + 1) < 2 ^ p.h then
            { tr with h := j, nextIdx := startOf j (t + 1), completed := false, stackusage := 0 } else tr)) := by
  induction m with
  | zero =>
    intro i st hi hl
    exact ⟨st.treehash, rfl, hl, fun _ _ => rfl, fun j h1 h2 => by omega⟩
  | succ m ih =>
    intro i st hi hl
    rw [roundRestart]
    have hs : (t + 1 + 3 * (1 <<< i)) % 2 ^ 32 = startOf i (t + 1) := by
      rw [F.startOf_new (by omega), Nat.one_shiftLeft]
      apply Nat.mod_eq_of_lt
      have h1 : 2 ^ p.h ≤ 2 ^ 30 := Nat.pow_le_pow_right (by omega) hh
      have h2 : 2 ^ i ≤ 2 ^ 27 := Nat.pow_le_pow_right (by omega) (by omega)
      omega
    simp only [hs]
    obtain ⟨tr, htr⟩ : ∃ tr, st.treehash[i]? = some tr := ⟨st.treehash[i]'(by omega), List.getElem?_eq_getElem (by omega)⟩
    by_cases hlt : startOf i (t + 1) < 2 ^ p.h
    · rw [if_pos hlt, rd_eq_ok htr, ok_bind, wr_eq_ok _ (by omega), ok_bind]
      obtain ⟨ths, e1, e2, e3, e4⟩ := ih (i + 1) { st with treehash := st.treehash.set i { tr with h := i, nextIdx := startOf i (t + 1), completed := false, stackusage := 0 } } (by omega) (by simpa using hl)
      refine ⟨ths, e1, e2, ?_, ?_⟩
      · intro j hj
        rw [e3 j (by omega)]
        simp only
        rw [List.getElem?_set, if_neg (by omega)]
      · intro j h1 h2
        rcases Nat.lt_or_ge i j with h | h
        · obtain ⟨tr', g1, g2⟩ := e4 j (by omega) h2
          simp only at g1
          rw [List.getElem?_set, if_neg (by omega)] at g1
          exact ⟨tr', g1, g2⟩
        · have : j = i := by omega
          subst this
          refine ⟨tr, htr, ?_⟩
          rw [e3 j (by omega), if_pos hlt]
          simp only
          rw [List.getElem?_set, if_pos rfl, if_pos (by omega)]
    · rw [if_neg hlt]
      obtain ⟨ths, e1, e2, e3, e4⟩ := ih (i + 1) st (by omega) hl
      refine ⟨ths, e1, e2, fun j hj => e3 j (by omega), ?_⟩
      intro j h1 h2
      rcases Nat.lt_or_ge i j with h | h
      · exact e4 j (by omega) h2
      · have : j = i := by omega
        subst this
        refine ⟨tr, htr, ?_⟩
        rw [e3 j (by omega), if_neg hlt]
        exact htr

/-- Progress after the restarts of round `t`. -/
def restartProg (h tau t : Nat) (T : Prog) : Prog := fun i =>
  if i < tau ∧ startOf i (t + 1) < 2 ^ h then some 0 else T i

theorem seg_restart (N : Nat → Nat → Bytes) {h t tau q : Nat} (F : TauFacts t tau q) (T : Prog)
    (hdone : ∀ i, i < h - 2 → i < tau → T i = none) (i : Nat) (hi : i < h - 2) :
    seg N t T i = seg N (t + 1) (restartProg h tau t T) i := by
  unfold seg restartProg
  rcases Nat.lt_or_ge i tau with hlt | hge
  · rw [hdone i hi hlt]
    by_cases hs : startOf i (t + 1) < 2 ^ h
    · rw [if_pos ⟨hlt, hs⟩]; simp only [segE_zero]
    · rw [if_neg (by omega)]
  · rw [if_neg (by omega), F.startOf_same hge]

theorem sep_restart {h t tau : Nat} {T : Prog} (hs : Sep (h - 2) T) : Sep (h - 2) (restartProg h tau t T) := by
  intro i i' c c' h1 h2 h3 h4 h5
  unfold restartProg at h3 h5
  by_cases hi : i < tau ∧ startOf i (t + 1) < 2 ^ h
  · rw [if_pos hi] at h3; injection h3 with h3; omega
  · rw [if_neg hi] at h3
    by_cases hi' : i' < tau ∧ startOf i' (t + 1) < 2 ^ h
    · rw [if_pos hi'] at h5; injection h5 with h5; subst h5; exact Nat.dvd_zero _
    · rw [if_neg hi'] at h5; exact hs i i' c c' h1 h2 h3 h4 h5

/-- The tree-hash invariant after the restarts. -/
theorem thInv_restart {N : Nat → Nat → Bytes} {h t tau q : Nat} (F : TauFacts t tau q) {T : Prog} {st st' : BdsState}
    (H : ThInv N h t T st) (hdone : ∀ i, i < h - 2 → i < tau → T i = none)
    (e1 : st'.stack = st.stack) (e2 : st'.stacklevels = st.stacklevels) (e3 : st'.stackoffset = st.stackoffset)
    (hl : st'.treehash.length = h - 2)
    (hhi : ∀ j, tau ≤ j → st'.treehash[j]? = st.treehash[j]?)
    (hlo : ∀ j, j < h - 2 → j < tau → ∃ tr, st.treehash[j]? = some tr ∧ st'.treehash[j]? = some
          (if startOf j (t + 1) < 2 ^ h then
            { tr with h := j, nextIdx := startOf j (t + 1), completed := false, stackusage := 0 } else tr)) :
    ThInv N h (t + 1) (restartProg h tau t T) st' := by
  have hE : ents N (t + 1) (restartProg h tau t T) (h - 2) 0 = ents N t T (h - 2) 0 :=
    (ents_congr N t (t + 1) T _ (h - 2) 0 fun j _ h2 => seg_restart N F T hdone j (by omega)).symm
  refine ⟨by rw [e1]; exact H.lstack, by rw [e2]; exact H.llevels, hl, sep_restart H.sep, ?_, ?_, ?_⟩
  · rw [e1, e2, hE]; exact H.holds
  · rw [e3, hE]; exact H.offset
  · intro i hi
    rcases Nat.lt_or_ge i tau with hlt | hge
    · obtain ⟨tr, g1, g2⟩ := hlo i hi hlt
      refine ⟨_, g2, ?_⟩
      unfold InstOk restartProg
      by_cases hs : startOf i (t + 1) < 2 ^ h
      · rw [if_pos ⟨hlt, hs⟩, if_pos hs]
        refine ⟨rfl, rfl, rfl, Nat.two_pow_pos i, by rw [segE_zero]; rfl, ?_⟩
        obtain ⟨z, hz⟩ := pow_dvd_startOf i (t + 1)
        have e : 2 ^ h = 2 ^ i * 2 ^ (h - i) := by rw [← Nat.pow_add]; congr 1; omega
        rw [hz, e] at hs ⊢
        have hlt' := Nat.lt_of_mul_lt_mul_left hs
        calc 2 ^ i * z + 2 ^ i = 2 ^ i * (z + 1) := by ring
          _ ≤ _ := Nat.mul_le_mul_left _ hlt'
      · rw [if_neg (by omega), hdone i hi hlt, if_neg hs]
        obtain ⟨tr', k1, k2⟩ := H.inst i hi
        rw [g1] at k1
        injection k1 with k1
        subst k1
        unfold InstOk at k2
        rw [hdone i hi hlt] at k2
        refine ⟨k2.1, ?_⟩
        intro hc
        have := Nat.two_pow_pos i
        omega
    · obtain ⟨tr, k1, k2⟩ := H.inst i hi
      refine ⟨tr, by rw [hhi i hge]; exact k1, ?_⟩
      unfold InstOk restartProg at *
      rw [if_neg (by omega), F.startOf_same hge]
      exact k2

theorem bdsRound_eq (S : Sha256) (hf : HashFn) (sk ps : Bytes) (p : XmssParams) (h1 : 1 ≤ p.wots.len)
    (hh4 : 4 ≤ p.h) (hh30 : p.h ≤ 30) (hev : p.h % 2 = 0) {t : Nat} (ht : t + 1 < 2 ^ p.h) {T : Prog} {st : BdsState}
    (H : ThInv (Spec.node (hf.prim S) p.wots.w p.wots.len sk ps) p.h t T st)
    (A : AuthInv (Spec.node (hf.prim S) p.wots.w p.wots.len sk ps) p.h t st)
    (B : Budget (p.h - 2) ((p.h - 2) >>> 1) t T) (a b c d e : Nat) :
    ∃ st' T', bdsRound S hf st t sk p ps ⟨0, 0, 0, a, b, c, d, e⟩ = ok st' ∧
      ThInv (Spec.node (hf.prim S) p.wots.w p.wots.len sk ps) p.h (t + 1) T' st' ∧
      AuthInv (Spec.node (hf.prim S) p.wots.w p.wots.len sk ps) p.h (t + 1) st' ∧
      (∀ i, i < p.h - 2 → 2 ^ (i + 1) ∣ t + 1 → T' i = none ∨ T' i = some 0) ∧
      (∀ i, i < p.h - 2 → ¬ 2 ^ (i + 1) ∣ t + 1 → T' i = T i) := by
  obtain ⟨q, htau, heq⟩ := findTau_spec t p.h ht p.h 0 (by omega) (by simp [Nat.mod_one])
  rw [bdsRound]
  simp only [Adrs.derive, Adrs.setType]
  generalize findTau t p.h p.h 0 = tau at *
  have F : TauFacts t tau q := ⟨heq⟩
  generalize hN : Spec.node (hf.prim S) p.wots.w p.wots.len sk ps = N at *
  have hM : p.h - 2 = 2 * ((p.h - 2) >>> 1) := by rw [Nat.shiftRight_eq_div_pow]; omega
  have hdone : ∀ i, i < p.h - 2 → i < tau → T i = none := fun i hi hlt =>
    B.done hM H.fits i hi (F.dvd_iff.mpr hlt)
  have hcond : (t >>> (tau + 1) &&& 1 = 0 ∧ tau < p.h - 1) ↔ (q % 2 = 0 ∧ tau < p.h - 1) := by
    rw [and_one_eq, Nat.shiftRight_eq_div_pow, Nat.pow_succ, ← Nat.div_div_eq_div_mul, F.old_tau,
      Nat.mul_div_cancel_left _ (by omega)]
  have hshift : tau >>> 1 = tau / 2 := by rw [Nat.shiftRight_eq_div_pow]
  have hauthtau : rd st.auth tau = ok (some (N tau (2 * q + 1))) := by
    have := A.auth tau htau
    rw [F.old_tau, sibling_even (by omega)] at this
    exact rd_eq_ok this
  -- the kept nodes
  have hK1 : q % 2 = 0 ∧ tau < p.h - 1 → ∀ i, i + 1 < p.h → (t + 1) / 2 ^ i % 2 = 1 → (t + 1) / 2 ^ (i + 1) % 2 = 0 →
      (st.keep.set (tau / 2) (some (N tau (2 * q + 1))))[i / 2]? = some (some (N i ((t + 1) / 2 ^ i))) := by
    intro hc i hi b1 b2
    rcases Nat.lt_trichotomy i tau with h | h | h
    · have := F.div_lt_even h; omega
    · subst h
      rw [List.getElem?_set, if_pos rfl, if_pos (by rw [A.lkeep]; omega), F.div_tau]
    · have hne : tau / 2 ≠ i / 2 := by
        intro he
        have hi1 : i = tau + 1 := by omega
        rw [hi1, Nat.pow_succ, ← Nat.div_div_eq_div_mul, F.div_tau] at b1
        omega
      rw [List.getElem?_set, if_neg hne, F.div_gt h]
      rw [F.div_gt h] at b1
      rw [F.div_gt (by omega)] at b2
      exact A.keep i hi b1 b2
  have hK2 : ¬ (q % 2 = 0 ∧ tau < p.h - 1) → ∀ i, i + 1 < p.h → (t + 1) / 2 ^ i % 2 = 1 →
      (t + 1) / 2 ^ (i + 1) % 2 = 0 → st.keep[i / 2]? = some (some (N i ((t + 1) / 2 ^ i))) := by
    intro hc i hi b1 b2
    rcases Nat.lt_trichotomy i tau with h | h | h
    · have := F.div_lt_even h; omega
    · subst h
      rw [Nat.pow_succ, ← Nat.div_div_eq_div_mul, F.div_tau] at b2
      omega
    · rw [F.div_gt h]
      rw [F.div_gt h] at b1
      rw [F.div_gt (by omega)] at b2
      exact A.keep i hi b1 b2
  -- the authentication path
  have hA : ∀ auth' : List Cell, auth'[tau]? = some (some (N tau (2 * q))) →
      (∀ j, tau < j → auth'[j]? = st.auth[j]?) →
      (∀ j, j < tau → auth'[j]? = some (some (N j ((t + 1) / 2 ^ j + 1)))) →
      ∀ i, i < p.h → auth'[i]? = some (some (N i (Spec.sibling ((t + 1) / 2 ^ i)))) := by
    intro auth' g1 g2 g3 i hi
    rcases Nat.lt_trichotomy i tau with h | h | h
    · rw [g3 i h, sibling_even (F.div_lt_even h)]
    · subst h; rw [g1, F.div_tau, sibling_odd (by omega)]; rfl
    · rw [g2 i h, F.div_gt h]; exact A.auth i hi
  have hT1 : ∀ i, i < p.h - 2 → 2 ^ (i + 1) ∣ t + 1 →
      restartProg p.h tau t T i = none ∨ restartProg p.h tau t T i = some 0 := by
    intro i hi hd
    unfold restartProg
    split
    · exact Or.inr rfl
    · exact Or.inl (hdone i hi (F.dvd_iff.mp hd))
  have hT2 : ∀ i, i < p.h - 2 → ¬ 2 ^ (i + 1) ∣ t + 1 → restartProg p.h tau t T i = T i := by
    intro i hi hd
    unfold restartProg
    rw [F.dvd_iff] at hd
    rw [if_neg (by omega)]
  rcases Nat.eq_zero_or_pos tau with h0 | hpos
  · subst h0
    rw [if_neg (by omega), ok_bind]
    obtain ⟨t5, t6, t7, o5, o6, o7, hleaf⟩ := genLeafWots_eq S hf sk p ps h1 t 0 0 0 0 0 0
    have hleaf' : genLeafWots S hf sk p ps (({ w3 := 1 } : Adrs).setLtree t) (({} : Adrs).setOTS t) = _ := hleaf
    have ht0 : t = 2 * q := by have := F.old_tau; simpa using this
    have hl0 : Spec.leaf (hf.prim S) p.wots.w p.wots.len sk ps t = N 0 (2 * q) := by
      rw [← ht0, ← hN]; rfl
    have fin : ∀ keep1 : List Cell, keep1.length = p.h / 2 →
        (∀ i, i + 1 < p.h → (t + 1) / 2 ^ i % 2 = 1 → (t + 1) / 2 ^ (i + 1) % 2 = 0 →
          keep1[i / 2]? = some (some (N i ((t + 1) / 2 ^ i)))) →
        ThInv N p.h (t + 1) (restartProg p.h 0 t T)
          { st with auth := st.auth.set 0 (some (N 0 (2 * q))), keep := keep1 } ∧
        AuthInv N p.h (t + 1) { st with auth := st.auth.set 0 (some (N 0 (2 * q))), keep := keep1 } := by
      intro keep1 k1 k2
      refine ⟨thInv_restart F H hdone rfl rfl rfl H.lth (fun _ _ => rfl) (fun j _ h => by omega), ?_⟩
      refine ⟨by simpa using A.lauth, k1, ?_, k2, A.retain⟩
      apply hA
      · simp only
        rw [List.getElem?_set, if_pos rfl, if_pos (by rw [A.lauth]; omega)]
      · intro j hj
        simp only
        rw [List.getElem?_set, if_neg (by omega)]
      · intro j hj; omega
    by_cases hc : q % 2 = 0 ∧ 0 < p.h - 1
    · rw [if_pos (hcond.mpr hc), hauthtau, ok_bind, hshift, wr_eq_ok _ (by rw [A.lkeep]; omega), ok_bind, ok_bind,
        if_pos rfl, hleaf']
      simp only [ok_bind]
      rw [wr_eq_ok _ (by rw [A.lauth]; omega), ok_bind, hl0]
      obtain ⟨g1, g2⟩ := fin (st.keep.set (0 / 2) (some (N 0 (2 * q + 1)))) (by simpa using A.lkeep) (hK1 hc)
      exact ⟨_, _, rfl, g1, g2, hT1, hT2⟩
    · rw [if_neg (fun h => hc (hcond.mp h)), ok_bind, if_pos rfl, hleaf']
      simp only [ok_bind]
      rw [wr_eq_ok _ (by rw [A.lauth]; omega), ok_bind, hl0]
      obtain ⟨g1, g2⟩ := fin st.keep A.lkeep (hK2 hc)
      exact ⟨_, _, rfl, g1, g2, hT1, hT2⟩
  · have hbuf1 : rd st.auth (tau - 1) = ok (some (N (tau - 1) (4 * q))) := by
      have := A.auth (tau - 1) (by omega)
      rw [F.old_pred hpos, sibling_odd (by omega)] at this
      exact rd_eq_ok this
    have hbuf2 : rd st.keep ((tau - 1) >>> 1) = ok (some (N (tau - 1) (4 * q + 1))) := by
      have := A.keep (tau - 1) (by omega) (by rw [F.old_pred hpos]; omega)
        (by rw [show tau - 1 + 1 = tau by omega, F.old_tau]; omega)
      rw [F.old_pred hpos] at this
      rw [Nat.shiftRight_eq_div_pow]
      exact rd_eq_ok this
    rw [if_pos hpos, hbuf1, ok_bind, hbuf2, ok_bind, ok_bind]
    have hnode : Spec.H (hf.prim S) ps 2 0 (tau - 1) (t >>> tau) (N (tau - 1) (4 * q)) (N (tau - 1) (4 * q + 1)) =
        N tau (2 * q) := by
      rw [Nat.shiftRight_eq_div_pow, F.old_tau, ← hN]
      conv_rhs => rw [show tau = (tau - 1) + 1 by omega]
      rw [Spec.node, show 2 * (2 * q) = 4 * q by omega]
    have fin : ∀ keep1 : List Cell, keep1.length = p.h / 2 →
        (∀ i, i + 1 < p.h → (t + 1) / 2 ^ i % 2 = 1 → (t + 1) / 2 ^ (i + 1) % 2 = 0 →
          keep1[i / 2]? = some (some (N i ((t + 1) / 2 ^ i)))) →
        ∃ st' T', (roundAuth p t tau 0 { st with auth := st.auth.set tau (some (N tau (2 * q))), keep := keep1 } >>=
            fun st => roundRestart p t (if tau < p.h - 2 then tau else p.h - 2) 0 st) = ok st' ∧
          ThInv N p.h (t + 1) T' st' ∧ AuthInv N p.h (t + 1) st' ∧
          (∀ i, i < p.h - 2 → 2 ^ (i + 1) ∣ t + 1 → T' i = none ∨ T' i = some 0) ∧
          (∀ i, i < p.h - 2 → ¬ 2 ^ (i + 1) ∣ t + 1 → T' i = T i) := by
      intro keep1 k1 k2
      obtain ⟨auth', r1, r2, r3, r4⟩ := roundAuth_eq p t tau q F htau hh4 hh30 ht N tau 0
        { st with auth := st.auth.set tau (some (N tau (2 * q))), keep := keep1 } (by omega) (by simpa using A.lauth)
        A.retain (by
          intro j hj hjt
          obtain ⟨tr, g1, g2⟩ := H.inst j hj
          refine ⟨tr, g1, ?_⟩
          unfold InstOk at g2
          rw [hdone j hj hjt] at g2
          rw [← F.startOf_old_div hjt]
          apply g2.2
          rw [F.startOf_old hjt]
          have := F.room hjt htau ht
          have e2 : 2 ^ (j + 1) = 2 * 2 ^ j := by ring
          omega)
      rw [r1, ok_bind]
      obtain ⟨ths, s1, s2, s3, s4⟩ := roundRestart_eq p t tau q F hh30 ht (if tau < p.h - 2 then tau else p.h - 2)
        (by split <;> omega) (by split <;> omega) (if tau < p.h - 2 then tau else p.h - 2) 0
        { st with auth := auth', keep := keep1 } (by omega) H.lth
      refine ⟨_, restartProg p.h tau t T, s1, ?_, ?_, hT1, hT2⟩
      · refine thInv_restart F H hdone rfl rfl rfl s2 ?_ ?_
        · intro j hj
          exact s3 j (Or.inr (by split <;> omega))
        · intro j hj hjt
          exact s4 j (Nat.zero_le _) (by split <;> omega)
      · refine ⟨r2, k1, ?_, k2, A.retain⟩
        apply hA
        · show auth'[tau]? = _
          rw [r3 tau (Or.inr (Nat.le_refl _))]
          simp only
          rw [List.getElem?_set, if_pos rfl, if_pos (by rw [A.lauth]; omega)]
        · intro j hj
          show auth'[j]? = _
          rw [r3 j (Or.inr (by omega))]
          simp only
          rw [List.getElem?_set, if_neg (by omega)]
        · intro j hj
          exact r4 j (Nat.zero_le _) hj
    have hhash : (hashH S hf (N (tau - 1) (4 * q) ++ N (tau - 1) (4 * q + 1)) ps
        ((({ w3 := 2 } : Adrs).setTreeHeight (tau - 1)).setTreeIndex (t >>> tau))).1 = N tau (2 * q) := by
      rw [← hnode]
      simp only [Adrs.setTreeHeight, Adrs.setTreeIndex, hashH_eq]
    by_cases hc : q % 2 = 0 ∧ tau < p.h - 1
    · rw [if_pos (hcond.mpr hc), hauthtau, ok_bind, hshift, wr_eq_ok _ (by rw [A.lkeep]; omega), ok_bind, ok_bind,
        if_neg (by omega)]
      simp only [ofOption_some, ok_bind]
      rw [hhash, wr_eq_ok _ (by rw [A.lauth]; omega), ok_bind]
      exact fin (st.keep.set (tau / 2) (some (N tau (2 * q + 1)))) (by simpa using A.lkeep) (hK1 hc)
    · rw [if_neg (fun h => hc (hcond.mp h)), ok_bind, if_neg (by omega)]
      simp only [ofOption_some, ok_bind]
      rw [hhash, wr_eq_ok _ (by rw [A.lauth]; omega), ok_bind]
      exact fin st.keep A.lkeep (hK2 hc)

end Qrl
