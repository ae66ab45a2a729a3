import Verif.Proof.Wots

namespace Qrl

open Outcome

theorem rd_eq_ok {α : Type} {l : List α} {i : Nat} {x : α} (h : l[i]? = some x) : rd l i = ok x := by
  simp [rd, h]

theorem rd_getD {α : Type} {l : List α} {i : Nat} (d : α) (h : i < l.length) : rd l i = ok (l.getD i d) := by
  apply rd_eq_ok; simp [h]

theorem wr_eq_ok {α : Type} {l : List α} {i : Nat} (x : α) (h : i < l.length) : wr l i x = ok (l.set i x) := by
  simp [wr, h]

theorem lTreeRow_eq (S : Sha256) (hf : HashFn) (ps : Bytes) (idx ht : Nat) (k : Nat) :
    ∀ (i : Nat) (buf : List Bytes) (c d : Nat), 2 * (i + k) ≤ buf.length → ∃ buf' c' d',
      lTreeRow S hf ps k i buf ⟨0, 0, 0, 1, idx, ht, c, d⟩ = ok (buf', ⟨0, 0, 0, 1, idx, ht, c', d'⟩) ∧
      buf'.length = buf.length ∧
      ∀ j, buf'[j]? = if i ≤ j ∧ j < i + k then
          some (Spec.H (hf.prim S) ps 1 idx ht j (buf.getD (2 * j) []) (buf.getD (2 * j + 1) []))
        else buf[j]? := by
  induction k with
  | zero =>
    intro i buf c d _
    exact ⟨buf, c, d, rfl, rfl, fun j => by rw [if_neg (by omega)]⟩
  | succ k ih =>
    intro i buf c d h
    simp only [lTreeRow, Adrs.setTreeIndex, rd_getD [] (show 2 * i < buf.length by omega),
      rd_getD [] (show 2 * i + 1 < buf.length by omega), ok_bind, hashH_eq]
    rw [wr_eq_ok _ (by omega), ok_bind]
    generalize hx : Spec.H (hf.prim S) ps 1 idx ht i (buf.getD (2 * i) []) (buf.getD (2 * i + 1) []) = x
    obtain ⟨buf', c', d', h1, h2, h3⟩ := ih (i + 1) (buf.set i x) i 2 (by simp; omega)
    refine ⟨buf', c', d', h1, by simpa using h2, ?_⟩
    intro j
    rw [h3]
    by_cases hj : i + 1 ≤ j ∧ j < i + 1 + k
    · rw [if_pos hj, if_pos (by omega)]
      have e1 : i ≠ 2 * j := by omega
      have e2 : i ≠ 2 * j + 1 := by omega
      simp [List.getD_eq_getElem?_getD, e1, e2]
    · rw [if_neg hj]
      by_cases hji : j = i
      · subst hji
        rw [if_pos (by omega), List.getElem?_set, if_pos rfl, if_pos (by omega), hx]
      · rw [if_neg (by omega), List.getElem?_set]
        simp [Ne.symm hji]

theorem getElem?_pairUp (f : Nat → Bytes → Bytes → Bytes) : ∀ (l : List Bytes) (j0 j : Nat),
    (Spec.pairUp f j0 l)[j]? =
      if 2 * j + 1 < l.length then some (f (j0 + j) (l.getD (2 * j) []) (l.getD (2 * j + 1) []))
      else if 2 * j + 1 = l.length then l[2 * j]? else none
  | [], j0, j => by simp [Spec.pairUp]
  | [a], j0, j => by
    simp only [Spec.pairUp, List.length_singleton]
    by_cases h : j = 0
    · subst h; simp
    · rw [if_neg (by omega), if_neg (by omega)]
      simp; omega
  | a :: b :: rest, j0, 0 => by simp [Spec.pairUp]
  | a :: b :: rest, j0, j + 1 => by
    simp only [Spec.pairUp, List.getElem?_cons_succ, getElem?_pairUp f rest (j0 + 1) j, List.length_cons]
    have e2 : 2 * (j + 1) = 2 * j + 1 + 1 := by omega
    simp only [e2, List.getElem?_cons_succ, List.getD_cons_succ, Nat.add_lt_add_iff_right,
      Nat.add_right_cancel_iff, show j0 + 1 + j = j0 + (j + 1) by omega]

theorem lTreeLoop_eq (S : Sha256) (hf : HashFn) (ps : Bytes) (idx : Nat) (l : Nat) :
    ∀ (ht : Nat) (buf : List Bytes) (c d : Nat), 1 ≤ l → l ≤ buf.length → ∃ b' c' d',
      lTreeLoop S hf ps l ht buf ⟨0, 0, 0, 1, idx, ht, c, d⟩ =
        ok (Spec.ltree (hf.prim S) ps idx ht (buf.take l), ⟨0, 0, 0, 1, idx, b', c', d'⟩) := by
  induction l using Nat.strongRecOn with
  | _ l ih =>
    intro ht buf c d h1 hl
    rw [lTreeLoop]
    have hs : l >>> 1 = l / 2 := Nat.shiftRight_eq_div_pow l 1
    have ha : l &&& 1 = l % 2 := Nat.and_one_is_mod l
    by_cases hl1 : l > 1
    · simp only [hl1, dite_true]
      obtain ⟨buf', c', d', e1, e2, e3⟩ := lTreeRow_eq S hf ps idx ht (l >>> 1) 0 buf c d (by omega)
      rw [e1]
      simp only [ok_bind, Adrs.setTreeHeight]
      have hlt : 1 < (buf.take l).length := by simp; omega
      have hstep : Spec.ltree (hf.prim S) ps idx ht (buf.take l) =
          Spec.ltree (hf.prim S) ps idx (ht + 1)
            (Spec.pairUp (fun j => Spec.H (hf.prim S) ps 1 idx ht j) 0 (buf.take l)) := by
        rw [Spec.ltree]; simp only [hlt, dite_true]
      rw [hstep]
      have hlen : (buf.take l).length = l := by simp; omega
      have hgD : ∀ k, k < l → (buf.take l).getD k [] = buf.getD k [] := by
        intro k hk; simp [hk]
      by_cases hodd : l &&& 1 = 1
      · simp only [hodd, if_true]
        have hx : rd buf' (l - 1) = ok (buf.getD (l - 1) []) := by
          apply rd_eq_ok
          rw [e3, if_neg (by omega)]
          simp [show l - 1 < buf.length by omega]
        rw [hx, ok_bind, wr_eq_ok _ (by omega), ok_bind]
        obtain ⟨b2, c2, d2, e4⟩ := ih (l >>> 1 + 1) (by omega) (ht + 1)
          (buf'.set (l >>> 1) (buf.getD (l - 1) [])) c' d' (by omega) (by simp; omega)
        refine ⟨b2, c2, d2, ?_⟩
        rw [e4]
        congr 3
        apply List.ext_getElem?
        intro j
        rw [getElem?_pairUp, List.getElem?_take, hlen]
        by_cases hj : 2 * j + 1 < l
        · rw [if_pos hj, if_pos (by omega), List.getElem?_set, if_neg (by omega), e3, if_pos (by omega)]
          rw [hgD _ (by omega), hgD _ (by omega), Nat.zero_add]
        · rw [if_neg hj]
          by_cases hj2 : 2 * j + 1 = l
          · rw [if_pos hj2, if_pos (by omega), List.getElem?_set, if_pos (by omega), if_pos (by omega)]
            rw [List.getElem?_take, if_pos (by omega)]
            have : 2 * j < buf.length := by omega
            simp [show l - 1 = 2 * j by omega, this]
          · rw [if_neg hj2, if_neg (by omega)]
      · simp only [hodd, if_false]
        obtain ⟨b2, c2, d2, e4⟩ := ih (l >>> 1) (by omega) (ht + 1) buf' c' d' (by omega) (by omega)
        refine ⟨b2, c2, d2, ?_⟩
        rw [e4]
        congr 3
        apply List.ext_getElem?
        intro j
        rw [getElem?_pairUp, List.getElem?_take, hlen]
        by_cases hj : 2 * j + 1 < l
        · rw [if_pos hj, if_pos (by omega), e3, if_pos (by omega)]
          rw [hgD _ (by omega), hgD _ (by omega), Nat.zero_add]
        · rw [if_neg hj, if_neg (by omega), if_neg (by omega)]
    · simp only [hl1, dite_false]
      have hl' : l = 1 := by omega
      subst hl'
      refine ⟨ht, c, d, ?_⟩
      rw [rd_getD [] (by omega), ok_bind, Spec.ltree]
      match buf, hl with
      | a :: rest, _ => simp

theorem lTree_eq (S : Sha256) (hf : HashFn) (p : WotsParams) (pk : List Bytes) (ps : Bytes) (idx b c d : Nat)
    (h1 : 1 ≤ p.len) (hl : pk.length = p.len) : ∃ b' c' d',
      lTree S hf p pk ps ⟨0, 0, 0, 1, idx, b, c, d⟩ =
        ok (Spec.ltree (hf.prim S) ps idx 0 pk, ⟨0, 0, 0, 1, idx, b', c', d'⟩) := by
  have := lTreeLoop_eq S hf ps idx p.len 0 pk c d h1 (by omega)
  rw [List.take_of_length_le (by omega)] at this
  exact this

theorem length_wotsPk (G : Bytes → Bytes) (w len : Nat) (sk ps : Bytes) (i : Nat) :
    (Spec.wotsPk G w len sk ps i).length = len := by simp [Spec.wotsPk]

/-- Leaf generation, whatever stale words the two addresses contain. -/
theorem genLeafWots_eq (S : Sha256) (hf : HashFn) (sk : Bytes) (p : XmssParams) (ps : Bytes)
    (h1 : 1 ≤ p.wots.len) (i b c d b2 c2 d2 : Nat) : ∃ b' c' d' b2' c2' d2',
      genLeafWots S hf sk p ps ⟨0, 0, 0, 1, i, b, c, d⟩ ⟨0, 0, 0, 0, i, b2, c2, d2⟩ =
        ok (Spec.leaf (hf.prim S) p.wots.w p.wots.len sk ps i,
          ⟨0, 0, 0, 1, i, b', c', d'⟩, ⟨0, 0, 0, 0, i, b2', c2', d2'⟩) := by
  obtain ⟨b3, c3, d3, e3⟩ := wotsPkgen_eq S hf p.wots sk ps i 0 0 0
  obtain ⟨b4, c4, d4, e4⟩ := lTree_eq S hf p.wots (Spec.wotsPk (hf.prim S) p.wots.w p.wots.len sk ps i) ps i b c d
    h1 (length_wotsPk ..)
  refine ⟨b4, c4, d4, b3, c3, d3, ?_⟩
  simp only [genLeafWots, getSeed_eq, e3, e4, ok_bind]
  rfl

theorem length_ltree (S : Sha256) (hf : HashFn) (ps : Bytes) (i : Nat) (n : Nat) :
    ∀ (ht : Nat) (l : List Bytes), l.length = n → 1 ≤ n → (∀ x ∈ l, x.length = 32) →
      (Spec.ltree (hf.prim S) ps i ht l).length = 32 := by
  induction n using Nat.strongRecOn with
  | _ n ih =>
    intro ht l hl h1 hx
    rw [Spec.ltree]
    by_cases h : 1 < l.length
    · simp only [h, dite_true]
      refine ih ((l.length + 1) / 2) (by omega) _ _ (Spec.length_pairUp ..) (by omega) ?_
      intro x hxm
      obtain ⟨j, hj⟩ := List.getElem?_of_mem hxm
      rw [getElem?_pairUp] at hj
      split at hj
      · cases hj; exact length_H ..
      · split at hj
        · exact hx x (List.mem_of_getElem? hj)
        · cases hj
    · simp only [h, dite_false]
      match l, hl with
      | [a], _ => exact hx a (by simp)
      | [], hl => simp at hl; omega
      | _ :: _ :: _, _ => simp at h

theorem length_leaf (S : Sha256) (hf : HashFn) (w len : Nat) (sk ps : Bytes) (i : Nat) (h : 1 ≤ len) :
    (Spec.leaf (hf.prim S) w len sk ps i).length = 32 := by
  refine length_ltree S hf ps i len 0 _ (length_wotsPk ..) h ?_
  intro x hx
  simp only [Spec.wotsPk, List.mem_map] at hx
  obtain ⟨ch, _, rfl⟩ := hx
  exact length_chain _ _ _ _ _ _ _ _ (length_wotsSecret ..)

theorem length_node (S : Sha256) (hf : HashFn) (w len : Nat) (sk ps : Bytes) (h : 1 ≤ len) (l i : Nat) :
    (Spec.node (hf.prim S) w len sk ps l i).length = 32 := by
  cases l with
  | zero => exact length_leaf S hf w len sk ps i h
  | succ l => exact length_H ..

end Qrl
