import Verif.Proof.Stack
import Verif.Proof.Sched
import Verif.Model.Bds

/-!
The shared stack of the BDS tree-hash instances: invariant, choice of the next instance, and one update.
-/

namespace Qrl

open Outcome

/-- First leaf of the node that tree-hash instance `i` is after at index `t`. -/
def startOf (i t : Nat) : Nat := t / 2 ^ (i + 1) * 2 ^ (i + 1) + 3 * 2 ^ i

theorem pow_dvd_startOf (i t : Nat) : 2 ^ i ∣ startOf i t := by
  unfold startOf
  apply Nat.dvd_add
  · exact Nat.dvd_trans (Nat.pow_dvd_pow 2 (Nat.le_succ i)) (Nat.dvd_mul_left _ _)
  · exact Nat.dvd_mul_left _ _

/-- The stack entries of instance `i`. -/
def seg (N : Nat → Nat → Bytes) (t : Nat) (T : Prog) (i : Nat) : List (Nat × Bytes) :=
  match T i with
  | none => []
  | some c => segE N 0 (startOf i t) c

/-- The stack entries of instances `i, …, i + m - 1`, top first. -/
def ents (N : Nat → Nat → Bytes) (t : Nat) (T : Prog) : Nat → Nat → List (Nat × Bytes)
  | 0, _ => []
  | m + 1, i => seg N t T i ++ ents N t T m (i + 1)

theorem ents_congr (N : Nat → Nat → Bytes) (t t' : Nat) (T T' : Prog) (m : Nat) : ∀ i,
    (∀ j, i ≤ j → j < i + m → seg N t T j = seg N t' T' j) → ents N t T m i = ents N t' T' m i := by
  induction m with
  | zero => intro i _; rfl
  | succ m ih =>
    intro i h
    rw [ents, ents, h i (Nat.le_refl _) (by omega), ih (i + 1) (fun j h1 h2 => h j (by omega) (by omega))]

theorem ents_skip (N : Nat → Nat → Bytes) (t : Nat) (T : Prog) (k : Nat) : ∀ m i,
    (∀ j, i ≤ j → j < i + k → seg N t T j = []) → ents N t T (k + m) i = ents N t T m (i + k) := by
  induction k with
  | zero => intro m i _; simp
  | succ k ih =>
    intro m i h
    rw [show k + 1 + m = (k + m) + 1 by omega, ents, h i (Nat.le_refl _) (by omega), List.nil_append,
      ih m (i + 1) (fun j h1 h2 => h j (by omega) (by omega)), show i + 1 + k = i + (k + 1) by omega]

theorem ents_split (N : Nat → Nat → Bytes) (t : Nat) (T : Prog) (k : Nat) : ∀ m i,
    ∃ es, ents N t T (k + m) i = es ++ ents N t T m (i + k) := by
  induction k with
  | zero => intro m i; exact ⟨[], by simp⟩
  | succ k ih =>
    intro m i
    obtain ⟨es, h⟩ := ih m (i + 1)
    refine ⟨seg N t T i ++ es, ?_⟩
    rw [show k + 1 + m = (k + m) + 1 by omega, ents, h, List.append_assoc, show i + 1 + k = i + (k + 1) by omega]

/-- All entries of a started instance are on the stack. -/
theorem seg_subset (N : Nat → Nat → Bytes) (t : Nat) (T : Prog) {M k : Nat} (hk : k < M) {e : Nat × Bytes}
    (he : e ∈ seg N t T k) : e ∈ ents N t T M 0 := by
  obtain ⟨es, h⟩ := ents_split N t T k (M - k) 0
  rw [show k + (M - k) = M by omega, Nat.zero_add, show M - k = (M - k - 1) + 1 by omega, ents] at h
  rw [h]
  exact List.mem_append_right _ (List.mem_append_left _ he)

theorem asc_ents (N : Nat → Nat → Bytes) (t : Nat) (T : Prog) (M : Nat) (hs : Sep M T)
    (hc : ∀ i c, i < M → T i = some c → c < 2 ^ i) (m : Nat) : ∀ i b, i + m ≤ M → b ≤ i + m →
    (∀ j c, i ≤ j → j < i + m → T j = some c → 2 ^ b ∣ c) → Asc b (ents N t T m i) (i + m) := by
  induction m with
  | zero => intro i b _ hb _; exact hb
  | succ m ih =>
    intro i b hm hb hd
    rw [ents]
    have rest : ∀ b, b ≤ i + 1 + m → (∀ j c, i + 1 ≤ j → j < i + 1 + m → T j = some c → 2 ^ b ∣ c) →
        Asc b (ents N t T m (i + 1)) (i + (m + 1)) := by
      intro b h1 h2
      rw [show i + (m + 1) = i + 1 + m by omega]
      exact ih (i + 1) b (by omega) h1 h2
    have hd' : ∀ j c, i + 1 ≤ j → j < i + 1 + m → T j = some c → 2 ^ b ∣ c :=
      fun j c h1 h2 => hd j c (by omega) (by omega)
    unfold seg
    cases hT : T i with
    | none => exact rest b (by omega) hd'
    | some c =>
      by_cases h0 : c = 0
      · subst h0; simp only [segE_zero, List.nil_append]; exact rest b (by omega) hd'
      · have hlt := hc i c (by omega) hT
        have hdv := hd i c (Nat.le_refl _) (by omega) hT
        have hbi : b < i := by
          have := Nat.le_of_dvd (by omega) hdv
          exact (Nat.pow_lt_pow_iff_right (by omega)).mp (Nat.lt_of_le_of_lt this hlt)
        have h1 := asc_segE_dvd N b 0 (startOf i t) c i hdv (by omega) hlt
        rw [Nat.zero_add, Nat.zero_add] at h1
        exact h1.append (rest i (by omega) fun j c' h2 h3 h4 => hs i j c c' (by omega) (by omega) hT (by omega) h4)

theorem Asc.mem_ge {b u : Nat} {es : List (Nat × Bytes)} (h : Asc b es u) : ∀ e ∈ es, b ≤ e.1 ∧ e.1 < u := by
  induction es generalizing b with
  | nil => intro e he; simp at he
  | cons e0 es ih =>
    obtain ⟨l, x⟩ := e0
    intro e he
    rcases List.mem_cons.mp he with rfl | he
    · have := h.2.le; have := h.1; exact ⟨h.1, by simp; omega⟩
    · have := ih h.2 e he; have := h.1; omega

theorem Holds.level {nodes : List Cell} {levels : List (Option Nat)} {es : List (Nat × Bytes)} (h : Holds nodes levels es) :
    ∀ (i : Nat) (e : Nat × Bytes), es[i]? = some e → levels[es.length - i - 1]? = some (some e.1) := by
  induction es with
  | nil => intro i e he; simp at he
  | cons e0 es ih =>
    obtain ⟨l, x⟩ := e0
    intro i e he
    cases i with
    | zero =>
      simp only [List.getElem?_cons_zero, Option.some.injEq] at he
      subst he
      simpa using h.2.1
    | succ i =>
      simp only [List.getElem?_cons_succ] at he
      have := ih h.2.2 i e he
      simp only [List.length_cons]
      rwa [show es.length + 1 - (i + 1) - 1 = es.length - i - 1 by omega]

theorem getElem?_map_some {l : List Nat} {i v : Nat} (h : (l.map some)[i]? = some (some v)) : l[i]? = some v := by
  rw [List.getElem?_map] at h
  cases h' : l[i]? with
  | none => rw [h'] at h; simp at h
  | some y => rw [h'] at h; simp at h; rw [h]

/-- The minimum over stack levels that are all at least `r`. -/
theorem minHeightLoop_ge (st : BdsState) (es : List (Nat × Bytes))
    (hH : Holds st.stack (st.stacklevels.map some) es) (ho : st.stackoffset = es.length) (r : Nat)
    (hr : ∀ e ∈ es, r ≤ e.1) (m : Nat) : ∀ i, i + m ≤ es.length → minHeightLoop st m i r = ok r := by
  induction m with
  | zero => intro i _; rfl
  | succ m ih =>
    intro i hi
    obtain ⟨e, he⟩ : ∃ e, es[i]? = some e := ⟨es[i]'(by omega), List.getElem?_eq_getElem (by omega)⟩
    have hlv := getElem?_map_some (hH.level i e he)
    rw [minHeightLoop, if_pos (by omega), ho, rd_eq_ok hlv, ok_bind,
      if_neg (Nat.not_lt.mpr (hr e (List.mem_of_getElem? he)))]
    exact ih (i + 1) (by omega)

/-- Every started instance sees the level of the top of the stack. -/
theorem minheight_eq (st : BdsState) (p : XmssParams) (tr : TreeInst) (l : Nat) (x : Bytes) (es : List (Nat × Bytes))
    (u : Nat) (hA : Asc 0 ((l, x) :: es) u) (hu : u ≤ p.h)
    (hH : Holds st.stack (st.stacklevels.map some) ((l, x) :: es)) (ho : st.stackoffset = es.length + 1)
    (h1 : 0 < tr.stackusage) (h2 : tr.stackusage ≤ es.length + 1) :
    treehashMinheightOnStack st p tr = ok l := by
  have hl := (hA.mem_ge (l, x) (List.mem_cons_self ..)).2
  have hge : ∀ e ∈ (l, x) :: es, l ≤ e.1 := by
    intro e he
    rcases List.mem_cons.mp he with rfl | he
    · exact Nat.le_refl _
    · have := (hA.2.mem_ge e he).1; omega
  have hlv := getElem?_map_some (hH.level 0 (l, x) rfl)
  obtain ⟨m, hm⟩ : ∃ m, tr.stackusage = m + 1 := ⟨tr.stackusage - 1, by omega⟩
  rw [treehashMinheightOnStack, hm, minHeightLoop, if_pos (by omega)]
  simp only [List.length_cons] at hlv
  rw [show st.stackoffset - 0 - 1 = es.length + 1 - 0 - 1 by omega, rd_eq_ok hlv, ok_bind]
  simp only at hl
  rw [if_pos (by omega)]
  exact minHeightLoop_ge st _ hH (by rw [ho]; rfl) l hge m 1 (by simp only [List.length_cons]; omega)

/-- The selection loop on a table of priorities. -/
def pickPure (low : Nat → Nat) : Nat → Nat → Nat → Nat → Nat
  | 0, _, level, _ => level
  | m + 1, i, level, lMin => if low i < lMin then pickPure low m (i + 1) i (low i) else pickPure low m (i + 1) level lMin

theorem pickPure_spec (low : Nat → Nat) (M h : Nat) (m : Nat) : ∀ i level lMin, i + m = M →
    ((level = M ∧ lMin = h ∧ ∀ j, j < i → h ≤ low j) ∨
      (level < i ∧ low level = lMin ∧ lMin < h ∧ (∀ j, j < i → lMin ≤ low j) ∧ ∀ j, j < level → lMin < low j)) →
    ((pickPure low m i level lMin = M ∧ ∀ j, j < M → h ≤ low j) ∨
      (pickPure low m i level lMin < M ∧ low (pickPure low m i level lMin) < h ∧
        (∀ j, j < M → low (pickPure low m i level lMin) ≤ low j) ∧
        ∀ j, j < pickPure low m i level lMin → low (pickPure low m i level lMin) < low j)) := by
  induction m with
  | zero =>
    intro i level lMin hi h
    rw [pickPure]
    rcases h with ⟨h1, h2, h3⟩ | ⟨h1, h2, h3, h4, h5⟩
    · exact Or.inl ⟨h1, fun j hj => h3 j (by omega)⟩
    · right
      rw [h2]
      exact ⟨by omega, h3, fun j hj => h4 j (by omega), h5⟩
  | succ m ih =>
    intro i level lMin hi h
    rw [pickPure]
    by_cases hl : low i < lMin
    · rw [if_pos hl]
      apply ih (i + 1) i (low i) (by omega)
      right
      refine ⟨by omega, rfl, ?_, ?_, ?_⟩
      · rcases h with ⟨_, h2, _⟩ | ⟨_, _, h3, _⟩ <;> omega
      · intro j hj
        rcases Nat.lt_or_ge j i with hj' | hj'
        · rcases h with ⟨_, h2, h3⟩ | ⟨_, _, _, h4, _⟩
          · have := h3 j hj'; omega
          · have := h4 j hj'; omega
        · rw [show j = i by omega]
      · intro j hj
        rcases h with ⟨_, h2, h3⟩ | ⟨_, _, _, h4, _⟩
        · have := h3 j hj; omega
        · have := h4 j hj; omega
    · rw [if_neg hl]
      apply ih (i + 1) level lMin (by omega)
      rcases h with ⟨h1, h2, h3⟩ | ⟨h1, h2, h3, h4, h5⟩
      · refine Or.inl ⟨h1, h2, ?_⟩
        intro j hj
        rcases Nat.lt_or_ge j i with hj' | hj'
        · exact h3 j hj'
        · rw [show j = i by omega]; omega
      · refine Or.inr ⟨by omega, h2, h3, ?_, h5⟩
        intro j hj
        rcases Nat.lt_or_ge j i with hj' | hj'
        · exact h4 j hj'
        · rw [show j = i by omega]; omega

/-- Relation between one tree-hash instance and its progress. -/
def InstOk (N : Nat → Nat → Bytes) (h t i : Nat) (T : Prog) (tr : TreeInst) : Prop :=
  match T i with
  | none => tr.completed = true ∧ (startOf i t + 2 ^ i ≤ 2 ^ h → tr.node = some (N i (startOf i t / 2 ^ i)))
  | some c => tr.completed = false ∧ tr.h = i ∧ tr.nextIdx = startOf i t + c ∧ c < 2 ^ i ∧
      tr.stackusage = (segE N 0 (startOf i t) c).length ∧ startOf i t + 2 ^ i ≤ 2 ^ h

/-- The part of the traversal state used by the tree-hash instances. -/
structure ThInv (N : Nat → Nat → Bytes) (h t : Nat) (T : Prog) (st : BdsState) : Prop where
  lstack : st.stack.length = h + 1
  llevels : st.stacklevels.length = h + 1
  lth : st.treehash.length = h - 2
  sep : Sep (h - 2) T
  holds : Holds st.stack (st.stacklevels.map some) (ents N t T (h - 2) 0)
  offset : st.stackoffset = (ents N t T (h - 2) 0).length
  inst : ∀ i, i < h - 2 → ∃ tr, st.treehash[i]? = some tr ∧ InstOk N h t i T tr

theorem ThInv.fits {N : Nat → Nat → Bytes} {h t : Nat} {T : Prog} {st : BdsState} (H : ThInv N h t T st) :
    ∀ i c, i < h - 2 → T i = some c → c < 2 ^ i := by
  intro i c hi hT
  obtain ⟨tr, _, h2⟩ := H.inst i hi
  unfold InstOk at h2
  rw [hT] at h2
  exact h2.2.2.2.1

theorem ThInv.asc {N : Nat → Nat → Bytes} {h t : Nat} {T : Prog} {st : BdsState} (H : ThInv N h t T st) :
    Asc 0 (ents N t T (h - 2) 0) (h - 2) := by
  have := asc_ents N t T (h - 2) H.sep H.fits (h - 2) 0 0 (by omega) (by omega) (fun _ _ _ _ _ => by simp)
  rwa [Nat.zero_add] at this

/-- Level of the top of the stack. -/
def topLevel (es : List (Nat × Bytes)) : Nat := (es.head?.map (·.1)).getD 0

/-- Priority of an instance. -/
def lowOf (N : Nat → Nat → Bytes) (h t : Nat) (T : Prog) (i : Nat) : Nat :=
  match T i with
  | none => h
  | some c => if c = 0 then i else topLevel (ents N t T (h - 2) 0)

theorem seg_some {N : Nat → Nat → Bytes} {t : Nat} {T : Prog} {i c : Nat} (h : T i = some c) :
    seg N t T i = segE N 0 (startOf i t) c := by unfold seg; rw [h]

theorem length_seg_le (N : Nat → Nat → Bytes) (t : Nat) (T : Prog) {M i : Nat} (h : i < M) :
    (seg N t T i).length ≤ (ents N t T M 0).length := by
  obtain ⟨es, e⟩ := ents_split N t T i (M - i) 0
  rw [show i + (M - i) = M by omega, Nat.zero_add, show M - i = (M - i - 1) + 1 by omega, ents] at e
  rw [e]; simp only [List.length_append]; omega

theorem pickLevel_eq {N : Nat → Nat → Bytes} {h t : Nat} {T : Prog} {st : BdsState} (H : ThInv N h t T st)
    (p : XmssParams) (hp : p.h = h) (m : Nat) : ∀ i level lMin, i + m ≤ h - 2 →
    pickLevel st p m i level lMin = ok (pickPure (lowOf N h t T) m i level lMin) := by
  induction m with
  | zero => intro i level lMin _; rfl
  | succ m ih =>
    intro i level lMin hi
    obtain ⟨tr, h1, h2⟩ := H.inst i (by omega)
    rw [pickLevel, rd_eq_ok h1, ok_bind, pickPure]
    have hlow : ∀ f : Nat → Outcome Nat, (if tr.completed = true then ok p.h >>= f
        else if tr.stackusage = 0 then ok i >>= f else treehashMinheightOnStack st p tr >>= f) =
          f (lowOf N h t T i) := by
      intro f
      unfold InstOk at h2
      unfold lowOf
      cases hT : T i with
      | none => rw [hT] at h2; rw [if_pos h2.1, hp]; rfl
      | some c =>
        rw [hT] at h2
        simp only at h2 ⊢
        obtain ⟨c1, c2, c3, c4, c5, c6⟩ := h2
        rw [if_neg (by rw [c1]; decide)]
        by_cases h0 : c = 0
        · subst h0
          rw [segE_zero] at c5
          rw [if_pos (show tr.stackusage = 0 from c5), if_pos rfl]; rfl
        · rw [if_neg h0]
          have hne : segE N 0 (startOf i t) c ≠ [] := segE_ne_nil N c 0 _ (by omega)
          have hpos : 0 < (segE N 0 (startOf i t) c).length := List.length_pos_iff.mpr hne
          rw [if_neg (by omega)]
          have hle := length_seg_le N t T (M := h - 2) (i := i) (by omega)
          rw [seg_some hT] at hle
          have hA := H.asc
          have hH := H.holds
          have ho := H.offset
          cases hes : ents N t T (h - 2) 0 with
          | nil => rw [hes] at hle; simp at hle; exact absurd hle hne
          | cons e es =>
            obtain ⟨l, x⟩ := e
            rw [hes] at hA hH ho hle
            simp only [List.length_cons] at hle ho
            rw [minheight_eq st p tr l x es (h - 2) hA (by omega) hH ho (by omega) (by omega)]
            rfl
    refine (hlow fun low => if low < lMin then pickLevel st p m (i + 1) i low
      else pickLevel st p m (i + 1) level lMin).trans ?_
    by_cases hl : lowOf N h t T i < lMin
    · rw [if_pos hl, if_pos hl]; exact ih (i + 1) i _ (by omega)
    · rw [if_neg hl, if_neg hl]; exact ih (i + 1) level lMin (by omega)

/-- The selected instance has the properties the scheduling argument needs. -/
theorem pick_spec {N : Nat → Nat → Bytes} {h t : Nat} {T : Prog} {st : BdsState} (H : ThInv N h t T st)
    (p : XmssParams) (hp : p.h = h) :
    (pickLevel st p (h - 2) 0 (h - 2) h = ok (h - 2) ∧ ∀ j, j < h - 2 → T j = none) ∨
    ∃ k c, pickLevel st p (h - 2) 0 (h - 2) h = ok k ∧ Pick (h - 2) T k c := by
  rw [pickLevel_eq H p hp (h - 2) 0 (h - 2) h (by omega)]
  have hlt : ∀ j c, j < h - 2 → T j = some c → lowOf N h t T j < h - 2 := by
    intro j c hj hT
    unfold lowOf
    rw [hT]
    simp only
    by_cases h0 : c = 0
    · rw [if_pos h0]; exact hj
    · rw [if_neg h0]
      have hA := H.asc
      cases hes : ents N t T (h - 2) 0 with
      | nil => simp only [topLevel, List.head?_nil, Option.map_none, Option.getD_none]; omega
      | cons e es =>
        rw [hes] at hA
        exact (hA.mem_ge e (List.mem_cons_self ..)).2
  -- entries of a started instance
  have hstart : ∀ i c, i < h - 2 → T i = some c → 0 < c →
      topLevel (ents N t T (h - 2) 0) < i ∧ 2 ^ topLevel (ents N t T (h - 2) 0) ∣ c := by
    intro i c hi hT h0
    have hA := H.asc
    have hne := segE_ne_nil N c 0 (startOf i t) h0
    cases hsg : segE N 0 (startOf i t) c with
    | nil => exact absurd hsg hne
    | cons e es =>
      obtain ⟨v, x⟩ := e
      have hd := segE_head_dvd N c 0 (startOf i t) v x es hsg
      have hv : v < i := by
        have h1 := asc_segE N i 0 (startOf i t) c (H.fits i c hi hT)
        rw [hsg] at h1
        have := (h1.mem_ge (v, x) (List.mem_cons_self ..)).2
        simp only at this; omega
      have hmem : (v, x) ∈ ents N t T (h - 2) 0 := by
        apply seg_subset N t T hi
        rw [seg_some hT, hsg]; exact List.mem_cons_self ..
      have htop : topLevel (ents N t T (h - 2) 0) ≤ v := by
        cases hes : ents N t T (h - 2) 0 with
        | nil => rw [hes] at hmem; simp at hmem
        | cons e' es' =>
          obtain ⟨l', x'⟩ := e'
          rw [hes] at hmem hA
          show l' ≤ v
          rcases List.mem_cons.mp hmem with h' | h'
          · injection h' with h'1 _; omega
          · have := (hA.2.mem_ge _ h').1; simp only at this; omega
      refine ⟨by omega, ?_⟩
      have := hd.2.1
      rw [Nat.sub_zero] at this
      exact Nat.dvd_trans (Nat.pow_dvd_pow 2 htop) this
  rcases pickPure_spec (lowOf N h t T) (h - 2) h (h - 2) 0 (h - 2) h (by omega)
    (Or.inl ⟨rfl, rfl, fun j hj => by omega⟩) with ⟨e, hall⟩ | ⟨hk, hkh, hmin, hstrict⟩
  · left
    refine ⟨by rw [e], ?_⟩
    intro j hj
    cases hT : T j with
    | none => rfl
    | some c => have := hall j hj; have := hlt j c hj hT; omega
  · right
    generalize pickPure (lowOf N h t T) (h - 2) 0 (h - 2) h = k at *
    cases hTk : T k with
    | none => unfold lowOf at hkh; rw [hTk] at hkh; simp at hkh
    | some c =>
      refine ⟨k, c, rfl, hk, hTk, H.fits k c hk hTk, ?_, ?_⟩
      · intro j cj hj hTj hdv
        have hs := hstrict j hj
        unfold lowOf at hs
        rw [hTk, hTj] at hs
        simp only at hs
        by_cases hcj : cj = 0
        · rw [if_pos hcj] at hs
          by_cases hck : c = 0
          · rw [if_pos hck] at hs; omega
          · rw [if_neg hck] at hs
            -- k is the lowest started instance
            have hempty : ∀ i, 0 ≤ i → i < 0 + k → seg N t T i = [] := by
              intro i _ hi
              have hs' := hstrict i (by omega)
              unfold lowOf at hs'
              rw [hTk] at hs'
              simp only [if_neg hck] at hs'
              unfold seg
              cases hTi : T i with
              | none => rfl
              | some ci =>
                rw [hTi] at hs'
                simp only at hs'
                by_cases h0 : ci = 0
                · subst h0; simp only [segE_zero]
                · rw [if_neg h0] at hs'; omega
            have hents := ents_skip N t T k (h - 2 - k) 0 hempty
            rw [show k + (h - 2 - k) = h - 2 by omega, Nat.zero_add, show h - 2 - k = (h - 2 - k - 1) + 1 by omega,
              ents, seg_some hTk] at hents
            cases hsg : segE N 0 (startOf k t) c with
            | nil => exact absurd hsg (segE_ne_nil N c 0 _ (by omega))
            | cons e es =>
              obtain ⟨v, x⟩ := e
              rw [hsg] at hents
              rw [hents] at hs
              have hd := segE_head_dvd N c 0 (startOf k t) v x es hsg
              simp only [topLevel, List.cons_append, List.head?_cons, Option.map_some, Option.getD_some] at hs
              rw [Nat.sub_zero] at hd
              have h2 : 2 ^ (v + 1) ∣ c := Nat.dvd_trans (Nat.pow_dvd_pow 2 (by omega)) hdv
              obtain ⟨z, hz⟩ := h2
              rw [hz, Nat.pow_succ, Nat.mul_assoc, Nat.mul_div_cancel_left _ (Nat.two_pow_pos v)] at hd
              omega
        · rw [if_neg hcj] at hs
          have h1 := (hstart j cj (by omega) hTj (by omega)).1
          by_cases hck : c = 0
          · rw [if_pos hck] at hs; omega
          · rw [if_neg hck] at hs; omega
      · intro hc0 i c' hi hiM hTi
        by_cases h0 : c' = 0
        · subst h0; exact Nat.dvd_zero _
        · have hm := hmin i hiM
          unfold lowOf at hm
          rw [hTk, hTi] at hm
          simp only [if_pos hc0, if_neg h0] at hm
          exact Nat.dvd_trans (Nat.pow_dvd_pow 2 hm) (hstart i c' hiM hTi (by omega)).2

end Qrl
