import Mathlib.Algebra.BigOperators.Intervals
import Mathlib.Algebra.Order.BigOperators.Group.Finset
import Mathlib.Tactic.Ring
import Mathlib.Tactic.Linarith

/-!
The scheduling argument of the BDS traversal, free of hashes: instance `i` needs `2^i` leaf computations after
each restart, `U = M / 2` computations are made per round, and the order in which they are spent is such that
every instance is complete when it is needed.
-/

namespace Qrl

open Finset

/-- Progress of the tree-hash instances: `none` = completed, `some c` = running with `c` leaves done. -/
abbrev Prog := Nat → Option Nat

/-- Stack discipline: above a started instance only multiples of its size have been done. -/
def Sep (M : Nat) (T : Prog) : Prop :=
  ∀ i i' c c', i < i' → i' < M → T i = some c → 0 < c → T i' = some c' → 2 ^ i ∣ c'

/-- What is known of the instance picked for the next update. -/
structure Pick (M : Nat) (T : Prog) (k c : Nat) : Prop where
  lt : k < M
  run : T k = some c
  fits : c < 2 ^ k
  urgent : ∀ j cj, j < k → T j = some cj → ¬ 2 ^ j ∣ c
  fresh : c = 0 → ∀ i c', k < i → i < M → T i = some c' → 2 ^ k ∣ c'

/-- One leaf more for instance `k`. -/
def stepProg (T : Prog) (k c : Nat) : Prog :=
  Function.update T k (if c + 1 = 2 ^ k then none else some (c + 1))

theorem Sep.step {M : Nat} {T : Prog} {k c : Nat} (h : Sep M T) (hp : Pick M T k c) : Sep M (stepProg T k c) := by
  intro i i' d d' hii hi' h1 hd h2
  unfold stepProg at h1 h2
  by_cases e1 : i = k
  · subst e1
    rw [Function.update_of_ne (by omega)] at h2
    by_cases hc : c = 0
    · exact hp.fresh hc i' d' hii hi' h2
    · exact h i i' c d' hii hi' hp.run (by omega) h2
  · rw [Function.update_of_ne e1] at h1
    by_cases e2 : i' = k
    · subst e2
      exact absurd (h i i' d c hii hi' h1 hd hp.run) (hp.urgent i d hii h1)
    · rw [Function.update_of_ne e2] at h2
      exact h i i' d d' hii hi' h1 hd h2

/-- Work that instance `i` may take before instance `j` is complete. -/
def need (j : Nat) (T : Prog) (i : Nat) : Nat :=
  match T i with
  | none => 0
  | some c => if i ≤ j then 2 ^ i - c else (2 ^ j - c % 2 ^ j) % 2 ^ j

def pot (M j : Nat) (T : Prog) : Nat := ∑ i ∈ range M, need j T i

theorem need_above_le (j : Nat) (T : Prog) (i : Nat) (h : j < i) : need j T i ≤ 2 ^ j - 1 := by
  have := Nat.two_pow_pos j
  unfold need
  cases T i with
  | none => simp
  | some c =>
    simp only [show ¬ i ≤ j by omega, if_false]
    have := Nat.mod_lt (2 ^ j - c % 2 ^ j) this
    omega

theorem need_above_zero (j : Nat) (T : Prog) (i c : Nat) (h : j < i) (hc : T i = some c) (hd : 2 ^ j ∣ c) :
    need j T i = 0 := by
  unfold need
  rw [hc]
  simp only [show ¬ i ≤ j by omega, if_false, Nat.mod_eq_zero_of_dvd hd, Nat.sub_zero, Nat.mod_self]

/-- Each update while `j` is running lowers its potential. -/
theorem pot_step {M : Nat} {T : Prog} {k c : Nat} (hp : Pick M T k c) (j cj : Nat) (hj : T j = some cj) :
    pot M j (stepProg T k c) < pot M j T := by
  have hother : ∀ i, i ≠ k → need j (stepProg T k c) i = need j T i := by
    intro i hi; unfold need stepProg; rw [Function.update_of_ne hi]
  have hk : need j (stepProg T k c) k < need j T k := by
    unfold need stepProg
    rw [Function.update_self, hp.run]
    have hf := hp.fits
    by_cases hkj : k ≤ j
    · simp only [hkj, if_true]
      by_cases he : c + 1 = 2 ^ k
      · simp only [he, if_true]; omega
      · simp only [he, if_false]; omega
    · have hnd := hp.urgent j cj (by omega) hj
      simp only [hkj, if_false]
      have hpos := Nat.two_pow_pos j
      have hr : c % 2 ^ j ≠ 0 := fun e => hnd (Nat.dvd_of_mod_eq_zero e)
      have hrl := Nat.mod_lt c hpos
      rw [Nat.mod_eq_of_lt (show 2 ^ j - c % 2 ^ j < 2 ^ j by omega)]
      by_cases he : c + 1 = 2 ^ k
      · simp only [he, if_true]; omega
      · simp only [he, if_false]
        by_cases hw : c % 2 ^ j + 1 = 2 ^ j
        · have : (c + 1) % 2 ^ j = 0 := by
            rw [Nat.add_mod]
            by_cases h1 : 2 ^ j = 1
            · rw [h1] at hrl hr; omega
            · rw [Nat.mod_eq_of_lt (show 1 < 2 ^ j by omega), hw, Nat.mod_self]
          rw [this, Nat.sub_zero, Nat.mod_self]; omega
        · have : (c + 1) % 2 ^ j = c % 2 ^ j + 1 := by
            have h1 : 1 < 2 ^ j := by omega
            rw [Nat.add_mod, Nat.mod_eq_of_lt h1, Nat.mod_eq_of_lt (by omega)]
          rw [this, Nat.mod_eq_of_lt (by omega)]; omega
  unfold pot
  apply Finset.sum_lt_sum
  · intro i _
    by_cases hi : i = k
    · subst hi; exact Nat.le_of_lt hk
    · exact Nat.le_of_eq (hother i hi)
  · exact ⟨k, mem_range.mpr hp.lt, hk⟩

theorem sum_one_nonzero (f : Nat → Nat) (K n : Nat) (h1 : ∀ i, i < n → f i ≤ K)
    (h2 : ∀ i i', i < i' → i' < n → f i = 0 ∨ f i' = 0) : ∑ i ∈ range n, f i ≤ K := by
  induction n with
  | zero => simp
  | succ n ih =>
    rw [sum_range_succ]
    by_cases h : f n = 0
    · rw [h, Nat.add_zero]
      exact ih (fun i hi => h1 i (by omega)) (fun i i' a b => h2 i i' a (by omega))
    · have : ∑ i ∈ range n, f i = 0 := by
        apply sum_eq_zero
        intro i hi
        rcases h2 i n (mem_range.mp hi) (by omega) with h | h'
        · exact h
        · exact absurd h' h
      rw [this, Nat.zero_add]
      exact h1 n (by omega)

theorem sum_two_pow (n : Nat) : ∑ i ∈ range n, 2 ^ i = 2 ^ n - 1 := by
  induction n with
  | zero => rfl
  | succ n ih =>
    rw [sum_range_succ, ih, Nat.pow_succ]
    have := Nat.two_pow_pos n
    omega

/-- The potential of `j` right after a restart. -/
theorem pot_restart {M j : Nat} {T : Prog} (hj : j < M) (hs : Sep M T) :
    pot M j T ≤ 2 ^ (j + 1) - 1 + (if j + 1 < M then 2 ^ j - 1 else 0) := by
  unfold pot
  obtain ⟨n, rfl⟩ : ∃ n, M = (j + 1) + n := ⟨M - (j + 1), by omega⟩
  rw [sum_range_add]
  have h1 : ∑ x ∈ range (j + 1), need j T x ≤ 2 ^ (j + 1) - 1 := by
    rw [← sum_two_pow]
    apply sum_le_sum
    intro i hi
    have hi := mem_range.mp hi
    unfold need
    cases T i with
    | none => simp
    | some c => simp only [show i ≤ j by omega, if_true]; exact Nat.sub_le _ _
  have h2 : ∑ x ∈ range n, need j T (j + 1 + x) ≤ (if j + 1 < j + 1 + n then 2 ^ j - 1 else 0) := by
    by_cases hn : n = 0
    · subst hn; simp
    · rw [if_pos (by omega)]
      apply sum_one_nonzero
      · intro i _; exact need_above_le j T _ (by omega)
      · intro i i' h3 h4
        cases hT : T (j + 1 + i) with
        | none => left; unfold need; rw [hT]
        | some c =>
          by_cases hc : c = 0
          · left; exact need_above_zero j T _ c (by omega) hT (by subst hc; exact Nat.dvd_zero _)
          · right
            cases hT' : T (j + 1 + i') with
            | none => unfold need; rw [hT']
            | some c' =>
              apply need_above_zero j T _ c' (by omega) hT'
              have := hs (j + 1 + i) (j + 1 + i') c c' (by omega) (by omega) hT (by omega) hT'
              exact Nat.dvd_trans (Nat.pow_dvd_pow 2 (by omega)) this
  exact Nat.add_le_add h1 h2

/-- Work of the smaller instances in the first `s` rounds. -/
def load (j s : Nat) : Nat := ∑ i ∈ range j, 2 ^ i * (s / 2 ^ (i + 1))

theorem load_end (j : Nat) : load j (2 ^ (j + 1) - 1) + 2 ^ j = j * 2 ^ j + 1 := by
  unfold load
  have : ∀ n, n ≤ j → ∑ i ∈ range n, 2 ^ i * ((2 ^ (j + 1) - 1) / 2 ^ (i + 1)) + 2 ^ n = n * 2 ^ j + 1 := by
    intro n
    induction n with
    | zero => intro _; simp
    | succ n ih =>
      intro hn
      have ih := ih (by omega)
      rw [sum_range_succ]
      have hd : (2 ^ (j + 1) - 1) / 2 ^ (n + 1) = 2 ^ (j - n) - 1 := by
        have e : 2 ^ (j + 1) = 2 ^ (n + 1) * 2 ^ (j - n) := by rw [← Nat.pow_add]; congr 1; omega
        have p1 := Nat.two_pow_pos (n + 1)
        have p2 := Nat.two_pow_pos (j - n)
        have e2 : 2 ^ (j + 1) - 1 = (2 ^ (n + 1) - 1) + 2 ^ (n + 1) * (2 ^ (j - n) - 1) := by
          have : 2 ^ (n + 1) * 2 ^ (j - n) = 2 ^ (n + 1) * (2 ^ (j - n) - 1) + 2 ^ (n + 1) := by
            conv_lhs => rw [show 2 ^ (j - n) = (2 ^ (j - n) - 1) + 1 by omega]
            ring
          omega
        rw [e2, Nat.add_mul_div_left _ _ p1, Nat.div_eq_of_lt (by omega), Nat.zero_add]
      rw [hd]
      have e3 : 2 ^ n * (2 ^ (j - n) - 1) + 2 ^ n = 2 ^ j := by
        have p2 := Nat.two_pow_pos (j - n)
        have : 2 ^ n * (2 ^ (j - n) - 1) + 2 ^ n = 2 ^ n * ((2 ^ (j - n) - 1) + 1) := by ring
        rw [this, show 2 ^ (j - n) - 1 + 1 = 2 ^ (j - n) by omega, ← Nat.pow_add]
        congr 1; omega
      have e4 : 2 ^ (n + 1) = 2 * 2 ^ n := by ring
      have e5 : (n + 1) * 2 ^ j = n * 2 ^ j + 2 ^ j := by ring
      rw [e4, e5]
      omega
  exact this j (Nat.le_refl _)

/-- `load` grows by the work of the instances restarted in that round. -/
theorem load_succ (j s : Nat) :
    load j (s + 1) = load j s + ∑ i ∈ range j, (if 2 ^ (i + 1) ∣ s + 1 then 2 ^ i else 0) := by
  unfold load
  rw [← sum_add_distrib]
  apply sum_congr rfl
  intro i _
  rw [Nat.succ_div]
  split
  · ring
  · ring

/-- Budget invariant at index `t`: instance `j` is complete, or what may still be spent before it is complete
fits in the rounds left. -/
def Budget (M U t : Nat) (T : Prog) : Prop :=
  ∀ j, j < M → T j = none ∨
    pot M j T + U * (t % 2 ^ (j + 1) + 1) ≤
      2 ^ (j + 1) - 1 + (if j + 1 < M then 2 ^ j - 1 else 0) + load j (t % 2 ^ (j + 1))

/-- When instance `j` is needed it is complete. -/
theorem Budget.done {M U t : Nat} {T : Prog} (h : Budget M U t T) (hM : M = 2 * U)
    (hc : ∀ i c, i < M → T i = some c → c < 2 ^ i) (j : Nat) (hj : j < M) (ht : 2 ^ (j + 1) ∣ t + 1) :
    T j = none := by
  rcases h j hj with h | h
  · exact h
  cases hT : T j with
  | none => rfl
  | some c =>
    exfalso
    have hs : t % 2 ^ (j + 1) = 2 ^ (j + 1) - 1 := by
      obtain ⟨q, hq⟩ := ht
      have hp := Nat.two_pow_pos (j + 1)
      have hq0 : 0 < q := by
        rcases Nat.eq_zero_or_pos q with h0 | h0
        · subst h0; simp at hq
        · exact h0
      have : t = (2 ^ (j + 1) - 1) + 2 ^ (j + 1) * (q - 1) := by
        have e : 2 ^ (j + 1) * q = 2 ^ (j + 1) * (q - 1) + 2 ^ (j + 1) := by
          conv_lhs => rw [show q = (q - 1) + 1 by omega]
          ring
        omega
      rw [this, Nat.add_mul_mod_self_left, Nat.mod_eq_of_lt (by omega)]
    rw [hs] at h
    have hl := load_end j
    have p := Nat.two_pow_pos j
    have e1 : 2 ^ (j + 1) = 2 * 2 ^ j := by ring
    have e2 : U * (2 ^ (j + 1) - 1 + 1) = M * 2 ^ j := by
      rw [show 2 ^ (j + 1) - 1 + 1 = 2 * 2 ^ j by omega, hM]; ring
    rw [e2] at h
    have hpos : 1 ≤ pot M j T := by
      have h1 : need j T j ≤ pot M j T :=
        Finset.single_le_sum (f := fun i => need j T i) (fun _ _ => Nat.zero_le _) (mem_range.mpr hj)
      have h2 : 1 ≤ need j T j := by
        unfold need
        rw [hT]
        have := hc j c hj hT
        simp only [Nat.le_refl, if_true]
        omega
      omega
    by_cases hjm : j + 1 < M
    · rw [if_pos hjm] at h
      obtain ⟨d, hd⟩ : ∃ d, M = j + 2 + d := ⟨M - (j + 2), by omega⟩
      have : M * 2 ^ j = j * 2 ^ j + 2 * 2 ^ j + d * 2 ^ j := by rw [hd]; ring
      rw [this] at h
      omega
    · rw [if_neg hjm] at h
      have : M * 2 ^ j = j * 2 ^ j + 2 ^ j := by rw [show M = j + 1 by omega]; ring
      rw [this] at h
      omega

/-- One round: the instances below `tau` are restarted (or stay complete), then `U` updates are spent. -/
theorem Budget.round {M U t : Nat} {T T1 T2 : Prog} (h : Budget M U t T)
    (hr : ∀ i, i < M → 2 ^ (i + 1) ∣ t + 1 → T1 i = none ∨ T1 i = some 0)
    (hk : ∀ i, i < M → ¬ 2 ^ (i + 1) ∣ t + 1 → T1 i = T i)
    (hs : Sep M T1)
    (hu : ∀ j, j < M → T2 j = none ∨ (T1 j ≠ none ∧ pot M j T2 + U ≤ pot M j T1)) :
    Budget M U (t + 1) T2 := by
  intro j hj
  rcases hu j hj with h2 | ⟨hne, hle⟩
  · exact Or.inl h2
  right
  have hp := Nat.two_pow_pos (j + 1)
  by_cases hd : 2 ^ (j + 1) ∣ t + 1
  · rw [Nat.mod_eq_zero_of_dvd hd]
    have := pot_restart hj hs
    have h0 : load j 0 = 0 := by simp [load]
    rw [h0]; omega
  · have hT : T1 j = T j := hk j hj hd
    have hb : pot M j T + U * (t % 2 ^ (j + 1) + 1) ≤
      2 ^ (j + 1) - 1 + (if j + 1 < M then 2 ^ j - 1 else 0) + load j (t % 2 ^ (j + 1)) := by
      rcases h j hj with h | h
      · exact absurd (hT.trans h) hne
      · exact h
    have hmod : (t + 1) % 2 ^ (j + 1) = t % 2 ^ (j + 1) + 1 := by
      have hl := Nat.mod_lt t hp
      rcases Nat.lt_or_ge (t % 2 ^ (j + 1) + 1) (2 ^ (j + 1)) with hlt | hge
      · rw [Nat.add_mod, Nat.mod_eq_of_lt (show 1 < 2 ^ (j + 1) by omega), Nat.mod_eq_of_lt hlt]
      · exfalso
        apply hd
        refine ⟨t / 2 ^ (j + 1) + 1, ?_⟩
        have := Nat.div_add_mod t (2 ^ (j + 1))
        rw [Nat.mul_add, Nat.mul_one]
        omega
    rw [hmod, load_succ]
    have hpot : pot M j T1 ≤ pot M j T +
        ∑ i ∈ range j, (if 2 ^ (i + 1) ∣ t % 2 ^ (j + 1) + 1 then 2 ^ i else 0) := by
      have hterm : ∀ i, i < M → need j T1 i ≤ need j T i + (if 2 ^ (i + 1) ∣ t + 1 then 2 ^ i else 0) := by
        intro i hi
        by_cases hdi : 2 ^ (i + 1) ∣ t + 1
        · rw [if_pos hdi]
          have hij : i < j := by
            apply Classical.byContradiction
            intro hc
            exact hd (Nat.dvd_trans (Nat.pow_dvd_pow 2 (by omega)) hdi)
          have : need j T1 i ≤ 2 ^ i := by
            unfold need
            rcases hr i hi hdi with e | e <;> rw [e]
            · exact Nat.zero_le _
            · simp only [show i ≤ j by omega, if_true]; omega
          omega
        · rw [if_neg hdi]
          unfold need
          rw [hk i hi hdi]; omega
      have h1 : pot M j T1 ≤ pot M j T + ∑ i ∈ range M, (if 2 ^ (i + 1) ∣ t + 1 then 2 ^ i else 0) := by
        unfold pot
        rw [← sum_add_distrib]
        exact sum_le_sum fun i hi => hterm i (mem_range.mp hi)
      have h2 : ∑ i ∈ range M, (if 2 ^ (i + 1) ∣ t + 1 then 2 ^ i else 0) =
          ∑ i ∈ range j, (if 2 ^ (i + 1) ∣ t % 2 ^ (j + 1) + 1 then 2 ^ i else 0) := by
        obtain ⟨n, rfl⟩ : ∃ n, M = j + n := ⟨M - j, by omega⟩
        rw [sum_range_add]
        have hz : ∑ x ∈ range n, (if 2 ^ (j + x + 1) ∣ t + 1 then 2 ^ (j + x) else 0) = 0 := by
          apply sum_eq_zero
          intro x _
          rw [if_neg]
          intro hc
          exact hd (Nat.dvd_trans (Nat.pow_dvd_pow 2 (by omega)) hc)
        rw [hz, Nat.add_zero]
        apply sum_congr rfl
        intro i hi
        have hi := mem_range.mp hi
        have : 2 ^ (i + 1) ∣ t + 1 ↔ 2 ^ (i + 1) ∣ t % 2 ^ (j + 1) + 1 := by
          rw [← hmod]
          exact (Nat.dvd_mod_iff (Nat.pow_dvd_pow 2 (by omega))).symm
        simp only [this]
      omega
    have : U * (t % 2 ^ (j + 1) + 1 + 1) = U * (t % 2 ^ (j + 1) + 1) + U := by ring
    omega

end Qrl
