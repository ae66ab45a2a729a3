import Verif.Proof.Stack
import Mathlib.Data.Nat.Bitwise

namespace Qrl

open Outcome

theorem rdUse_set_ne {α : Type} {l : List α} {i j : Nat} {x : α} (h : i ≠ j) : (l.set i x)[j]? = l[j]? := by
  rw [List.getElem?_set, if_neg h]

theorem authLeaves_eq (S : Sha256) (hf : HashFn) (p : XmssParams) (sk ps : Bytes) (h1 : 1 ≤ p.wots.len)
    (m : Nat) : ∀ (i : Nat) (tree : List Cell) (o4 o5 o6 o7 t4 t5 t6 t7 : Nat),
      i + m ≤ 2 ^ p.h → tree.length = 2 * 2 ^ p.h →
      (∀ j < i, tree[2 ^ p.h + j]? = some (some (Spec.leaf (hf.prim S) p.wots.w p.wots.len sk ps j))) →
      ∃ tree', authLeaves S hf sk p ps m i tree ⟨0, 0, 0, 1, t4, t5, t6, t7⟩ ⟨0, 0, 0, 0, o4, o5, o6, o7⟩ =
          ok tree' ∧ tree'.length = 2 * 2 ^ p.h ∧
        ∀ j < i + m, tree'[2 ^ p.h + j]? = some (some (Spec.leaf (hf.prim S) p.wots.w p.wots.len sk ps j)) := by
  induction m with
  | zero => intro i tree o4 o5 o6 o7 t4 t5 t6 t7 _ hl hj; exact ⟨tree, rfl, hl, hj⟩
  | succ m ih =>
    intro i tree o4 o5 o6 o7 t4 t5 t6 t7 him hl hj
    obtain ⟨t5', t6', t7', o5', o6', o7', hleaf⟩ := genLeafWots_eq S hf sk p ps h1 i t5 t6 t7 o5 o6 o7
    simp only [authLeaves, Adrs.setLtree, Adrs.setOTS, hleaf, ok_bind]
    rw [wr_eq_ok _ (by omega)]
    simp only [ok_bind]
    obtain ⟨tree', e1, e2, e3⟩ := ih (i + 1) (tree.set (2 ^ p.h + i)
      (some (Spec.leaf (hf.prim S) p.wots.w p.wots.len sk ps i))) i o5' o6' o7' i t5' t6' t7' (by omega)
      (by simpa using hl) (by
        intro j hj'
        by_cases hji : j = i
        · subst hji; rw [List.getElem?_set, if_pos rfl, if_pos (by omega)]
        · rw [rdUse_set_ne (by omega)]; exact hj j (by omega))
    exact ⟨tree', e1, e2, fun j hj' => e3 j (by omega)⟩

/-- One level: `n` nodes at `[2n, 4n)` … are combined into `[n, 2n)`. -/
theorem authRow_eq (S : Sha256) (hf : HashFn) (w len : Nat) (sk ps : Bytes) (l n : Nat) (m : Nat) :
    ∀ (k : Nat) (tree : List Cell) (c d : Nat), k + m = n → 4 * n ≤ tree.length →
      (∀ j < 2 * n, tree[2 * n + j]? = some (some (Spec.node (hf.prim S) w len sk ps l j))) →
      (∀ j < k, tree[n + j]? = some (some (Spec.node (hf.prim S) w len sk ps (l + 1) j))) →
      ∃ tree' c' d', authRow S hf ps (2 * n) m (2 * k) tree ⟨0, 0, 0, 2, 0, l, c, d⟩ =
          ok (tree', ⟨0, 0, 0, 2, 0, l, c', d'⟩) ∧ tree'.length = tree.length ∧
        (∀ j, 2 * n ≤ j → tree'[j]? = tree[j]?) ∧
        (∀ j < n, tree'[n + j]? = some (some (Spec.node (hf.prim S) w len sk ps (l + 1) j))) := by
  induction m with
  | zero => intro k tree c d hk hl _ hj; exact ⟨tree, c, d, rfl, rfl, fun _ _ => rfl, fun j h => hj j (by omega)⟩
  | succ m ih =>
    intro k tree c d hk hl hch hj
    have hs : (2 * k) >>> 1 = k := by rw [Nat.shiftRight_eq_div_pow]; omega
    have hs2 : (2 * n) >>> 1 = n := by rw [Nat.shiftRight_eq_div_pow]; omega
    have ha := hch (2 * k) (by omega)
    have hb := hch (2 * k + 1) (by omega)
    rw [show 2 * n + (2 * k + 1) = 2 * n + 2 * k + 1 by omega] at hb
    simp only [authRow, Adrs.setTreeIndex, hs, hs2, rdUse_eq_ok ha, rdUse_eq_ok hb, ok_bind, hashH_eq]
    rw [wr_eq_ok _ (by omega)]
    simp only [ok_bind]
    have hn : Spec.H (hf.prim S) ps 2 0 l k (Spec.node (hf.prim S) w len sk ps l (2 * k))
        (Spec.node (hf.prim S) w len sk ps l (2 * k + 1)) = Spec.node (hf.prim S) w len sk ps (l + 1) k := rfl
    rw [hn]
    obtain ⟨tree', c', d', e1, e2, e3, e4⟩ := ih (k + 1)
      (tree.set (n + k) (some (Spec.node (hf.prim S) w len sk ps (l + 1) k))) k 2 (by omega) (by simpa using hl)
      (by
        intro j hjn
        rw [rdUse_set_ne (by omega)]; exact hch j hjn)
      (by
        intro j hjk
        by_cases hji : j = k
        · subst hji; rw [List.getElem?_set, if_pos rfl, if_pos (by omega)]
        · rw [rdUse_set_ne (by omega)]; exact hj j (by omega))
    refine ⟨tree', c', d', ?_, by simpa using e2, ?_, e4⟩
    · rw [show 2 * k + 2 = 2 * (k + 1) by omega]; exact e1
    · intro j hjn
      rw [e3 j hjn, rdUse_set_ne (by omega)]

theorem authLevels_len (S : Sha256) (hf : HashFn) (w len : Nat) (sk ps : Bytes) (h : Nat) (r : Nat) :
    ∀ (l : Nat) (tree : List Cell) (b c d : Nat), l + r = h → tree.length = 2 * 2 ^ h →
      (∀ l' ≤ l, ∀ j < 2 ^ (h - l'), tree[2 ^ (h - l') + j]? =
        some (some (Spec.node (hf.prim S) w len sk ps l' j))) →
      ∃ tree', authLevels S hf ps (2 ^ r) l tree ⟨0, 0, 0, 2, 0, b, c, d⟩ = ok tree' ∧ tree'.length = 2 * 2 ^ h ∧
        (∀ l' ≤ h, ∀ j < 2 ^ (h - l'), tree'[2 ^ (h - l') + j]? =
          some (some (Spec.node (hf.prim S) w len sk ps l' j))) := by
  induction r with
  | zero =>
    intro l tree b c d hl hlen hT
    refine ⟨tree, ?_, hlen, ?_⟩
    · rw [authLevels]; simp
    · intro l' hl'; exact hT l' (by omega)
  | succ r ih =>
    intro l tree b c d hl hlen hT
    have hpos : 0 < 2 ^ r := Nat.two_pow_pos r
    have hp : 2 ^ (r + 1) = 2 * 2 ^ r := by rw [Nat.pow_succ]; omega
    have hle : 2 ^ (r + 1) ≤ 2 ^ h := Nat.pow_le_pow_right (by omega) (by omega)
    rw [authLevels]
    simp only [show 2 ^ (r + 1) > 1 by omega, dite_true, Adrs.setTreeHeight]
    have hT0 := hT l (Nat.le_refl _)
    rw [show h - l = r + 1 by omega, hp] at hT0
    obtain ⟨tree1, c1, d1, e1, e2, e3, e4⟩ := authRow_eq S hf w len sk ps l (2 ^ r) (2 ^ r) 0 tree c d (by omega)
      (by omega) hT0 (by intro j hj; omega)
    have hm : (2 ^ (r + 1) + 1) / 2 = 2 ^ r := by omega
    have hsh : 2 ^ (r + 1) >>> 1 = 2 ^ r := by rw [Nat.shiftRight_eq_div_pow]; omega
    rw [hm, hsh, hp]
    rw [Nat.mul_zero] at e1
    rw [e1]
    simp only [ok_bind]
    obtain ⟨tree', e5, e7, e6⟩ := ih (l + 1) tree1 l c1 d1 (by omega) (by omega) (by
      intro l' hl' j hj
      by_cases hll : l' = l + 1
      · subst hll
        rw [show h - (l + 1) = r by omega] at hj ⊢
        exact e4 j hj
      · have hge : 2 ^ (r + 1) ≤ 2 ^ (h - l') := Nat.pow_le_pow_right (by omega) (by omega)
        rw [e3 _ (by omega)]
        exact hT l' (by omega) j hj)
    exact ⟨tree', e5, e7, e6⟩

theorem xor_one (n : Nat) : n ^^^ 1 = Spec.sibling n := by
  rw [Spec.sibling]
  split
  · rename_i h; exact Nat.xor_one_of_even (Nat.even_iff.mpr h)
  · rename_i h; exact Nat.xor_one_of_odd (Nat.odd_iff.mpr (by omega))

theorem sibling_lt {n k : Nat} (h : n < 2 ^ (k + 1)) : Spec.sibling n < 2 ^ (k + 1) := by
  rw [Nat.pow_succ] at h ⊢
  rw [Spec.sibling]; split <;> omega

theorem authCopy_eq (tree : List Cell) (N : Nat → Nat → Bytes) (h idx : Nat) (hidx : idx < 2 ^ h)
    (hT : ∀ l' ≤ h, ∀ j < 2 ^ (h - l'), tree[2 ^ (h - l') + j]? = some (some (N l' j))) (m : Nat) :
    ∀ i, i + m = h → authCopy tree h idx m i =
      ok ((List.range' i m).map fun l => N l (Spec.sibling (idx / 2 ^ l))) := by
  induction m with
  | zero => intro i _; rfl
  | succ m ih =>
    intro i hi
    have e : 2 ^ h >>> i = 2 ^ (h - i) := by
      rw [Nat.shiftRight_eq_div_pow, Nat.pow_div (by omega) (by omega)]
    have hs : Spec.sibling (idx / 2 ^ i) < 2 ^ (h - i) := by
      obtain ⟨k, hk⟩ : ∃ k, h - i = k + 1 := ⟨m, by omega⟩
      rw [hk]
      apply sibling_lt
      apply Nat.div_lt_of_lt_mul
      rw [← Nat.pow_add]
      rw [show i + (k + 1) = h by omega]; exact hidx
    have hr := hT i (by omega) _ hs
    simp only [authCopy, xor_one, Nat.shiftRight_eq_div_pow idx, e, rdUse_eq_ok hr, ok_bind, ih (i + 1) (by omega),
      List.range'_succ, List.map_cons]

/-- Root and authentication path computed by the simple signer. -/
theorem computeAuthpathWots_eq (S : Sha256) (hf : HashFn) (p : XmssParams) (sk ps : Bytes)
    (h1 : 1 ≤ p.wots.len) (hh : p.h ≤ 25) (idx : Nat) (hidx : idx < 2 ^ p.h) (a b c d e : Nat) :
    computeAuthpathWots S hf idx sk p ps ⟨0, 0, 0, a, b, c, d, e⟩ =
      ok (Spec.node (hf.prim S) p.wots.w p.wots.len sk ps p.h 0,
        Spec.authPath (hf.prim S) p.wots.w p.wots.len sk ps p.h idx) := by
  have hsz : (2 * 2 ^ p.h * 32) % 2 ^ 32 / 32 = 2 * 2 ^ p.h := by
    have : 2 ^ p.h ≤ 2 ^ 25 := Nat.pow_le_pow_right (by omega) hh
    omega
  simp only [computeAuthpathWots, show ¬ p.h ≥ 30 by omega, if_false, Adrs.derive, Adrs.setType, hsz]
  obtain ⟨t1, e1, e2, e3⟩ := authLeaves_eq S hf p sk ps h1 (2 ^ p.h) 0 (List.replicate (2 * 2 ^ p.h) none)
    0 0 0 0 0 0 0 0 (by omega) (by simp) (by intro j hj; omega)
  rw [e1, ok_bind]
  obtain ⟨t2, e4, _, e5⟩ := authLevels_len S hf p.wots.w p.wots.len sk ps p.h p.h 0 t1 0 0 0 (by omega) e2 (by
    intro l' hl' j hj
    obtain rfl : l' = 0 := by omega
    exact e3 j (by simpa using hj))
  rw [e4, ok_bind, authCopy_eq t2 _ p.h idx hidx e5 p.h 0 (by omega), ok_bind]
  have hr := e5 p.h (Nat.le_refl _) 0 (Nat.two_pow_pos _)
  simp only [Nat.sub_self, Nat.pow_zero, Nat.add_zero] at hr
  rw [rdUse_eq_ok hr]
  simp only [ok_bind, Spec.authPath, List.range_eq_range']

end Qrl
