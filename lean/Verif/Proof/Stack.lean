import Verif.Proof.LTree
import Mathlib.Tactic.Ring
import Mathlib.Tactic.Linarith

/-!
The common stack shape of the three tree-hash loops: after `c` leaves the nodes on the stack are those of
the binary representation of `c`.
-/

namespace Qrl

open Outcome

/-- The entries (level, node), top first, of a tree-hash stack at levels `l` and above, with `q` finished
nodes of level `l` beginning with node `a`. -/
def segE (N : Nat → Nat → Bytes) (l a q : Nat) : List (Nat × Bytes) :=
  if _h : q = 0 then []
  else if q % 2 = 1 then (l, N l (a + q - 1)) :: segE N (l + 1) (a / 2) (q / 2)
  else segE N (l + 1) (a / 2) (q / 2)
termination_by q

theorem segE_zero (N : Nat → Nat → Bytes) (l a : Nat) : segE N l a 0 = [] := by
  rw [segE]; simp

theorem segE_odd (N : Nat → Nat → Bytes) (l a q : Nat) (h : q % 2 = 1) :
    segE N l a q = (l, N l (a + q - 1)) :: segE N (l + 1) (a / 2) (q / 2) := by
  rw [segE]; simp [h]; omega

theorem segE_even (N : Nat → Nat → Bytes) (l a q : Nat) (h : q % 2 = 0) :
    segE N l a q = segE N (l + 1) (a / 2) (q / 2) := by
  rw [segE]
  by_cases h0 : q = 0
  · subst h0; simp [segE_zero]
  · simp [h, h0]

theorem length_segE (N : Nat → Nat → Bytes) (k : Nat) : ∀ (l a q : Nat), q < 2 ^ k →
    (segE N l a q).length ≤ k := by
  induction k with
  | zero => intro l a q h; have : q = 0 := by omega
            subst this; simp [segE_zero]
  | succ k ih =>
    intro l a q h
    have hk : q / 2 < 2 ^ k := by rw [Nat.pow_succ] at h; omega
    rcases Nat.mod_two_eq_zero_or_one q with h2 | h2
    · rw [segE_even _ _ _ _ h2]; have := ih (l + 1) (a / 2) (q / 2) hk; omega
    · rw [segE_odd _ _ _ _ h2]; have := ih (l + 1) (a / 2) (q / 2) hk; simp; omega

/-- The arrays hold these entries (top first). -/
def Holds (nodes : List Cell) (levels : List (Option Nat)) : List (Nat × Bytes) → Prop
  | [] => True
  | (l, x) :: es => nodes[es.length]? = some (some x) ∧ levels[es.length]? = some (some l) ∧ Holds nodes levels es

theorem Holds.set {nodes : List Cell} {levels : List (Option Nat)} {es : List (Nat × Bytes)} {k : Nat}
    (h : Holds nodes levels es) (hk : es.length ≤ k) (c : Cell) (d : Option Nat) :
    Holds (nodes.set k c) (levels.set k d) es := by
  induction es with
  | nil => trivial
  | cons e es ih =>
    obtain ⟨l, x⟩ := e
    obtain ⟨h1, h2, h3⟩ := h
    simp only [List.length_cons] at hk
    refine ⟨?_, ?_, ih h3 (by omega)⟩
    · rw [List.getElem?_set, if_neg (by omega)]; exact h1
    · rw [List.getElem?_set, if_neg (by omega)]; exact h2

theorem Holds.push {nodes : List Cell} {levels : List (Option Nat)} {es : List (Nat × Bytes)}
    (h : Holds nodes levels es) (h1 : es.length < nodes.length) (h2 : es.length < levels.length)
    (x : Bytes) (l : Nat) :
    Holds (nodes.set es.length (some x)) (levels.set es.length (some l)) ((l, x) :: es) := by
  refine ⟨?_, ?_, h.set (Nat.le_refl _) _ _⟩
  · rw [List.getElem?_set, if_pos rfl, if_pos h1]
  · rw [List.getElem?_set, if_pos rfl, if_pos h2]

theorem Holds.lt {nodes : List Cell} {levels : List (Option Nat)} {e : Nat × Bytes} {es : List (Nat × Bytes)}
    (h : Holds nodes levels (e :: es)) : es.length < nodes.length ∧ es.length < levels.length := by
  obtain ⟨l, x⟩ := e
  exact ⟨(List.getElem?_eq_some_iff.mp h.1).1, (List.getElem?_eq_some_iff.mp h.2.1).1⟩

theorem Holds.append {nodes : List Cell} {levels : List (Option Nat)} {es fs : List (Nat × Bytes)}
    (h : Holds nodes levels (es ++ fs)) : Holds nodes levels fs := by
  induction es with
  | nil => exact h
  | cons e es ih => exact ih h.2.2

theorem rdUse_eq_ok {α : Type} {l : List (Option α)} {i : Nat} {x : α} (h : l[i]? = some (some x)) :
    rdUse l i = ok x := by
  simp [rdUse, rd, h]

/-- The levels of the entries are strictly increasing from the top, within `[b, u)`. -/
def Asc : Nat → List (Nat × Bytes) → Nat → Prop
  | b, [], u => b ≤ u
  | b, (l, _) :: es, u => b ≤ l ∧ Asc (l + 1) es u

theorem Asc.le {b u : Nat} {es : List (Nat × Bytes)} (h : Asc b es u) : b + es.length ≤ u := by
  induction es generalizing b with
  | nil => exact h
  | cons e es ih =>
    obtain ⟨l, x⟩ := e
    have := ih h.2
    have := h.1
    simp only [List.length_cons]; omega

theorem Asc.weaken {b b' u : Nat} {es : List (Nat × Bytes)} (h : Asc b es u) (hb : b' ≤ b) : Asc b' es u := by
  cases es with
  | nil => exact Nat.le_trans hb h
  | cons e es => exact ⟨Nat.le_trans hb h.1, h.2⟩

theorem Asc.append {b m u : Nat} {es fs : List (Nat × Bytes)} (h : Asc b es m) (h2 : Asc m fs u) :
    Asc b (es ++ fs) u := by
  induction es generalizing b with
  | nil => exact h2.weaken h
  | cons e es ih => exact ⟨h.1, ih h.2⟩

theorem asc_segE (N : Nat → Nat → Bytes) (k : Nat) : ∀ (l a q : Nat), q < 2 ^ k →
    Asc l (segE N l a q) (l + k) := by
  induction k with
  | zero => intro l a q h; have : q = 0 := by omega
            subst this; simp [segE_zero, Asc]
  | succ k ih =>
    intro l a q h
    have hk : q / 2 < 2 ^ k := by rw [Nat.pow_succ] at h; omega
    have := ih (l + 1) (a / 2) (q / 2) hk
    rw [show l + 1 + k = l + (k + 1) by omega] at this
    rcases Nat.mod_two_eq_zero_or_one q with h2 | h2
    · rw [segE_even _ _ _ _ h2]; exact this.weaken (by omega)
    · rw [segE_odd _ _ _ _ h2]; exact ⟨Nat.le_refl _, this⟩

theorem asc_segE_dvd (N : Nat → Nat → Bytes) (b : Nat) : ∀ (l a q k : Nat), 2 ^ b ∣ q → b ≤ k → q < 2 ^ k →
    Asc (l + b) (segE N l a q) (l + k) := by
  induction b with
  | zero => intro l a q k _ _ h; exact asc_segE N k l a q h
  | succ b ih =>
    intro l a q k hd hb hq
    obtain ⟨c, rfl⟩ := hd
    obtain ⟨k, rfl⟩ : ∃ j, k = j + 1 := ⟨k - 1, by omega⟩
    have e2 : 2 ^ (b + 1) * c = 2 * (2 ^ b * c) := by ring
    rw [segE_even _ _ _ _ (by rw [e2]; omega)]
    have e : 2 ^ (b + 1) * c / 2 = 2 ^ b * c := by rw [e2]; omega
    rw [e]
    have := ih (l + 1) (a / 2) (2 ^ b * c) k ⟨c, rfl⟩ (by omega) (by rw [e2, Nat.pow_succ] at hq; omega)
    rw [show l + 1 + b = l + (b + 1) by omega, show l + 1 + k = l + (k + 1) by omega] at this
    exact this

/-- The lowest level on a segment divides the count. -/
theorem segE_head_dvd (N : Nat → Nat → Bytes) (q : Nat) : ∀ (l a : Nat) (v : Nat) (x : Bytes)
    (es : List (Nat × Bytes)), segE N l a q = (v, x) :: es → l ≤ v ∧ 2 ^ (v - l) ∣ q ∧ q / 2 ^ (v - l) % 2 = 1 := by
  induction q using Nat.strongRecOn with
  | _ q ih =>
    intro l a v x es h
    by_cases h0 : q = 0
    · subst h0; simp [segE_zero] at h
    · rcases Nat.mod_two_eq_zero_or_one q with h2 | h2
      · rw [segE_even _ _ _ _ h2] at h
        obtain ⟨h3, ⟨c, hc⟩, h5⟩ := ih (q / 2) (by omega) _ _ _ _ _ h
        have hp : 2 ^ (v - l) = 2 * 2 ^ (v - (l + 1)) := by
          rw [show v - l = (v - (l + 1)) + 1 by omega]; ring
        refine ⟨by omega, ⟨c, ?_⟩, ?_⟩
        · rw [hp, Nat.mul_assoc, ← hc]; omega
        · rw [hp, ← Nat.div_div_eq_div_mul]; exact h5
      · rw [segE_odd _ _ _ _ h2] at h
        simp only [List.cons.injEq, Prod.mk.injEq] at h
        obtain ⟨⟨rfl, _⟩, _⟩ := h
        simp [h2]

theorem segE_ne_nil (N : Nat → Nat → Bytes) (q : Nat) : ∀ (l a : Nat), 0 < q → segE N l a q ≠ [] := by
  induction q using Nat.strongRecOn with
  | _ q ih =>
    intro l a h0
    rcases Nat.mod_two_eq_zero_or_one q with h2 | h2
    · rw [segE_even _ _ _ _ h2]; exact ih (q / 2) (by omega) _ _ (by omega)
    · rw [segE_odd _ _ _ _ h2]; simp

theorem shr_succ (i l : Nat) : i >>> (l + 1) = (i >>> l) / 2 := by
  rw [Nat.shiftRight_succ]

/-- `treehash_merge` of `treehash` (algsxmss.c), started at leaf 0. -/
theorem treehashMerge_eq (S : Sha256) (hf : HashFn) (w len : Nat) (sk ps : Bytes) (idx : Nat) (q : Nat) :
    ∀ (l : Nat) (nodes : List Cell) (levels : List (Option Nat)) (b c d : Nat),
      idx >>> l = q →
      Holds nodes levels ((l, Spec.node (hf.prim S) w len sk ps l q) ::
        segE (Spec.node (hf.prim S) w len sk ps) l 0 q) →
      ∃ st b' c' d', treehashMerge S hf ps idx
          ((segE (Spec.node (hf.prim S) w len sk ps) l 0 q).length + 1) nodes levels ⟨0, 0, 0, 2, 0, b, c, d⟩ =
          ok (st, ⟨0, 0, 0, 2, 0, b', c', d'⟩) ∧
        Holds st.nodes st.levels (segE (Spec.node (hf.prim S) w len sk ps) l 0 (q + 1)) ∧
        st.offset = (segE (Spec.node (hf.prim S) w len sk ps) l 0 (q + 1)).length ∧
        st.nodes.length = nodes.length ∧ st.levels.length = levels.length := by
  induction q using Nat.strongRecOn with
  | _ q ih =>
    intro l nodes levels b c d hidx hH
    generalize hN : Spec.node (hf.prim S) w len sk ps = N at *
    rcases Nat.mod_two_eq_zero_or_one q with h2 | h2
    · -- nothing to merge
      have hodd : segE N l 0 (q + 1) = (l, N l q) :: segE N l 0 q := by
        rw [segE_odd _ _ _ _ (by omega), segE_even _ _ _ _ h2, show (q + 1) / 2 = q / 2 by omega]
        simp
      refine ⟨⟨nodes, levels, (segE N l 0 q).length + 1⟩, b, c, d, ?_, ?_, ?_, rfl, rfl⟩
      · cases hs : segE N l 0 q with
        | nil => rfl
        | cons e es =>
          obtain ⟨v, x⟩ := e
          rw [hs] at hH
          obtain ⟨_, hl1, _, hl2, _⟩ := hH
          simp only [List.length_cons] at hl1
          simp only [List.length_cons, treehashMerge, rdUse_eq_ok hl1, rdUse_eq_ok hl2, ok_bind]
          have hd := segE_head_dvd N q l 0 v x es hs
          have hne : l ≠ v := by
            intro e; subst e
            simp at hd; omega
          simp [hne]
      · rw [hodd]; exact hH
      · rw [hodd]; rfl
    · rw [segE_odd _ _ _ _ h2] at hH ⊢
      simp only [Nat.zero_add, Nat.zero_div] at hH ⊢
      obtain ⟨hn1, hl1, hn2, hl2, hrest⟩ := hH
      simp only [List.length_cons] at hl1 hn1
      simp only [List.length_cons, treehashMerge, rdUse_eq_ok hl1, rdUse_eq_ok hl2, rdUse_eq_ok hn1,
        rdUse_eq_ok hn2, ok_bind, Adrs.setTreeHeight, Adrs.setTreeIndex, hashH_eq, if_true]
      have hlt := (List.getElem?_eq_some_iff.mp hn2).1
      have hlt2 := (List.getElem?_eq_some_iff.mp hl2).1
      rw [wr_eq_ok _ hlt, wr_eq_ok _ hlt2]
      simp only [ok_bind]
      have hnode : Spec.H (hf.prim S) ps 2 0 l (idx >>> (l + 1)) (N l (q - 1)) (N l q) = N (l + 1) (q / 2) := by
        rw [shr_succ, hidx, ← hN, Spec.node]
        rw [show 2 * (q / 2) = q - 1 by omega, show q - 1 + 1 = q by omega]
      rw [hnode]
      obtain ⟨st, b', c', d', e1, e2, e3, e4, e5⟩ := ih (q / 2) (by omega) (l + 1)
        (nodes.set (segE N (l + 1) 0 (q / 2)).length (some (N (l + 1) (q / 2))))
        (levels.set (segE N (l + 1) 0 (q / 2)).length (some (l + 1))) l (idx >>> (l + 1)) 2
        (by rw [shr_succ, hidx]) (hrest.push hlt hlt2 _ _)
      refine ⟨st, b', c', d', e1, ?_, ?_, by simpa using e4, by simpa using e5⟩
      · rw [segE_even _ _ _ _ (by omega), show (q + 1) / 2 = q / 2 + 1 by omega]; exact e2
      · rw [segE_even _ _ _ _ (by omega), show (q + 1) / 2 = q / 2 + 1 by omega]; exact e3

theorem treehashLoop_eq (S : Sha256) (hf : HashFn) (p : XmssParams) (sk ps : Bytes) (h1 : 1 ≤ p.wots.len)
    (h : Nat) (m : Nat) : ∀ (idx : Nat) (st : THStack) (o4 o5 o6 o7 t4 t5 t6 t7 b c d : Nat),
      idx + m ≤ 2 ^ h → st.nodes.length = h + 1 → st.levels.length = h + 1 →
      Holds st.nodes st.levels (segE (Spec.node (hf.prim S) p.wots.w p.wots.len sk ps) 0 0 idx) →
      st.offset = (segE (Spec.node (hf.prim S) p.wots.w p.wots.len sk ps) 0 0 idx).length →
      ∃ st', treehashLoop S hf sk p ps m idx st ⟨0, 0, 0, 0, o4, o5, o6, o7⟩ ⟨0, 0, 0, 1, t4, t5, t6, t7⟩
          ⟨0, 0, 0, 2, 0, b, c, d⟩ = ok st' ∧
        Holds st'.nodes st'.levels (segE (Spec.node (hf.prim S) p.wots.w p.wots.len sk ps) 0 0 (idx + m)) := by
  induction m with
  | zero => intro idx st o4 o5 o6 o7 t4 t5 t6 t7 b c d _ _ _ hH _; exact ⟨st, rfl, hH⟩
  | succ m ih =>
    intro idx st o4 o5 o6 o7 t4 t5 t6 t7 b c d hm hn hl hH ho
    obtain ⟨t5', t6', t7', o5', o6', o7', hleaf⟩ := genLeafWots_eq S hf sk p ps h1 idx t5 t6 t7 o5 o6 o7
    simp only [treehashLoop, Adrs.setLtree, Adrs.setOTS, hleaf, ok_bind]
    have hlen := length_segE (Spec.node (hf.prim S) p.wots.w p.wots.len sk ps) h 0 0 idx (by omega)
    rw [ho, wr_eq_ok _ (by omega), wr_eq_ok _ (by omega)]
    simp only [ok_bind]
    obtain ⟨st1, b', c', d', e1, e2, e3, e4, e5⟩ := treehashMerge_eq S hf p.wots.w p.wots.len sk ps idx idx 0 _ _ b c d
      (by simp) (hH.push (by omega) (by omega) (Spec.node (hf.prim S) p.wots.w p.wots.len sk ps 0 idx) 0)
    rw [show Spec.node (hf.prim S) p.wots.w p.wots.len sk ps 0 idx =
      Spec.leaf (hf.prim S) p.wots.w p.wots.len sk ps idx from rfl] at e1
    rw [e1]
    simp only [ok_bind]
    obtain ⟨st', e6, e7⟩ := ih (idx + 1) st1 idx o5' o6' o7' idx t5' t6' t7' b' c' d' (by omega)
      (by rw [e4]; simpa using hn) (by rw [e5]; simpa using hl) e2 e3
    exact ⟨st', e6, by rw [show idx + (m + 1) = idx + 1 + m by omega]; exact e7⟩

theorem segE_pow (N : Nat → Nat → Bytes) (h : Nat) : ∀ l, segE N l 0 (2 ^ h) = [(l + h, N (l + h) 0)] := by
  induction h with
  | zero => intro l; rw [segE_odd _ _ _ _ (by simp)]; simp [segE_zero]
  | succ h ih =>
    intro l
    rw [segE_even _ _ _ _ (by rw [Nat.pow_succ]; omega), show 2 ^ (h + 1) / 2 = 2 ^ h by rw [Nat.pow_succ]; omega,
      ih, show l + 1 + h = l + (h + 1) by omega]

/-- The root computed by `treehash`. -/
theorem treehash_eq (S : Sha256) (hf : HashFn) (p : XmssParams) (sk ps : Bytes) (h1 : 1 ≤ p.wots.len) (h : Nat)
    (hh : h < 32) (a b c d e : Nat) :
    treehash S hf h 0 sk p ps ⟨0, 0, 0, a, b, c, d, e⟩ =
      ok (Spec.node (hf.prim S) p.wots.w p.wots.len sk ps h 0) := by
  simp only [treehash, Adrs.derive, Adrs.setType, show ¬ h ≥ 32 by omega, if_false]
  obtain ⟨st', e1, e2⟩ := treehashLoop_eq S hf p sk ps h1 h (2 ^ h) 0
    ⟨List.replicate (h + 1) none, List.replicate (h + 1) none, 0⟩ 0 0 0 0 0 0 0 0 0 0 0 (by omega)
    (by simp) (by simp) (by rw [segE_zero]; trivial) (by rw [segE_zero]; rfl)
  rw [e1, ok_bind]
  rw [Nat.zero_add, segE_pow, Nat.zero_add] at e2
  exact rdUse_eq_ok e2.1

end Qrl
