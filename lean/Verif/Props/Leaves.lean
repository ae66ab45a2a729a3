import Verif.Props.Binding
/-!
# Two leaves of one key differ, unless hash calls collide
-/

namespace Qrl.Props

open Qrl.Spec

/-- Equal values of H under one public seed come from equal addresses and arguments, or there is a collision. -/
theorem H_inj_all {G : Bytes → Bytes} (hG : Out32 G) {seed : Bytes} {t a b c a' b' c' : Nat} (ht : t < 2 ^ 32)
    (ha : a < 2 ^ 32) (hb : b < 2 ^ 32) (hc : c < 2 ^ 32) (ha' : a' < 2 ^ 32) (hb' : b' < 2 ^ 32) (hc' : c' < 2 ^ 32)
    {l r l' r' : Bytes} (h : H G seed t a b c l r = H G seed t a' b' c' l' r') :
    (a = a' ∧ b = b' ∧ c = c') ∨ Collides G (HCalls G seed t a b c l r ++ HCalls G seed t a' b' c' l' r') := by
  by_cases e : (HCall.h (PRF G seed (address t a b c 0)) (Spec.xor (l ++ r)
        (PRF G seed (address t a b c 1) ++ PRF G seed (address t a b c 2)))).input =
      (HCall.h (PRF G seed (address t a' b' c' 0)) (Spec.xor (l' ++ r')
        (PRF G seed (address t a' b' c' 1) ++ PRF G seed (address t a' b' c' 2)))).input
  · have e0 := e
    simp only [HCall.input, List.append_assoc] at e
    have e := List.append_cancel_left e
    obtain ⟨e1, e2⟩ := List.append_inj e (by rw [PRF_len hG, PRF_len hG])
    rcases PRF_cases (cs := HCalls G seed t a b c l r ++ HCalls G seed t a' b' c' l' r') (by simp [HCalls])
      (by simp [HCalls]) e1 with e3 | e3
    · obtain ⟨_, rfl, rfl, rfl, _⟩ := address_inj ⟨ht, ha, hb, hc, by omega⟩ ⟨ht, ha', hb', hc', by omega⟩ e3
      exact Or.inl ⟨rfl, rfl, rfl⟩
    · exact Or.inr e3
  · exact Or.inr ⟨_, by simp [HCalls], _, by simp [HCalls], e, h⟩

/-- The last step of an L-tree over more than `2^k` and at most `2^(k+1)` values: an H at height `ht + k`. -/
theorem ltree_top (G : Bytes → Bytes) (seed : Bytes) (i : Nat) (k : Nat) : ∀ (ht : Nat) (l : List Bytes),
    2 ^ k < l.length → l.length ≤ 2 ^ (k + 1) → ∃ a b, ltree G seed i ht l = H G seed 1 i (ht + k) 0 a b ∧
      HCalls G seed 1 i (ht + k) 0 a b ⊆ ltreeCalls G seed i ht l := by
  induction k with
  | zero =>
    intro ht l h1 h2
    match l, h1, h2 with
    | [a, b], _, _ =>
      refine ⟨a, b, ?_, ?_⟩
      · rw [ltree]; simp only [List.length_cons, List.length_nil]
        rw [dif_pos (by omega), ltree]; simp [pairUp]
      · rw [ltreeCalls]; simp only [List.length_cons, List.length_nil]
        rw [dif_pos (by omega)]
        intro z hz
        simp only [pairUpCalls, List.mem_append]
        exact Or.inl (Or.inl hz)
    | [], h1, _ => simp at h1
    | [_], h1, _ => simp at h1
    | _ :: _ :: _ :: _, _, h2 => simp at h2
  | succ k ih =>
    intro ht l h1 h2
    have hp : 2 ^ (k + 1) = 2 * 2 ^ k := by rw [Nat.pow_succ]; omega
    have hp2 : 2 ^ (k + 1 + 1) = 2 * 2 ^ (k + 1) := by rw [Nat.pow_succ]; omega
    have hpos : 0 < 2 ^ k := Nat.two_pow_pos _
    obtain ⟨a, b, e1, e2⟩ := ih (ht + 1) (pairUp (fun j => H G seed 1 i ht j) 0 l) (by rw [length_pairUp]; omega)
      (by rw [length_pairUp]; omega)
    rw [show ht + 1 + k = ht + (k + 1) by omega] at e1 e2
    refine ⟨a, b, ?_, ?_⟩
    · rw [ltree, dif_pos (by omega), e1]
    · rw [ltreeCalls, dif_pos (by omega)]
      exact List.subset_append_of_subset_right _ e2

theorem log_bounds : ∀ n, 2 ≤ n → ∃ k, 2 ^ k < n ∧ n ≤ 2 ^ (k + 1)
  | n, h => by
    induction n with
    | zero => omega
    | succ n ih =>
      by_cases h2 : 2 ≤ n
      · obtain ⟨k, h3, h4⟩ := ih h2
        by_cases h5 : n + 1 ≤ 2 ^ (k + 1)
        · exact ⟨k, by omega, h5⟩
        · exact ⟨k + 1, by omega, by rw [Nat.pow_succ]; omega⟩
      · exact ⟨0, by omega, by omega⟩

/-- Equal leaves of one key are the same leaf, or two of the hash calls that make them collide. -/
theorem leaf_ne {G : Bytes → Bytes} (hG : Out32 G) {w len : Nat} (hl : 2 ≤ len) (hl' : len < 2 ^ 32) {sk ps : Bytes} {i j : Nat}
    (hi : i < 2 ^ 32) (hj : j < 2 ^ 32) (h : leaf G w len sk ps i = leaf G w len sk ps j) :
    i = j ∨ Collides G (leafCalls G w len sk ps i ++ leafCalls G w len sk ps j) := by
  obtain ⟨k, h1, h2⟩ := log_bounds len hl
  have hk : k < 2 ^ 32 := by
    have := Nat.lt_two_pow_self (n := k)
    omega
  have hlen : ∀ x, (wotsPk G w len sk ps x).length = len := by intro x; simp [wotsPk]
  obtain ⟨a, b, e1, s1⟩ := ltree_top G ps i k 0 (wotsPk G w len sk ps i) (by rw [hlen]; exact h1) (by rw [hlen]; exact h2)
  obtain ⟨a', b', e2, s2⟩ := ltree_top G ps j k 0 (wotsPk G w len sk ps j) (by rw [hlen]; exact h1) (by rw [hlen]; exact h2)
  rw [leaf, leaf, e1, e2, Nat.zero_add] at h
  rw [Nat.zero_add] at s1 s2
  rcases H_inj_all hG (by omega) hi hk (by omega) hj hk (by omega) h with ⟨e, -, -⟩ | hc
  · exact Or.inl e
  · refine Or.inr (hc.mono ?_)
    intro z hz
    rcases List.mem_append.mp hz with hz | hz
    · exact List.mem_append_left _ (List.mem_append_right _ (s1 hz))
    · exact List.mem_append_right _ (List.mem_append_right _ (s2 hz))

end Qrl.Props
