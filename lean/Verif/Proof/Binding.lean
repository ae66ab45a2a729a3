import Verif.Props.Address

namespace Qrl

open Qrl.Spec Qrl.Props

/-- A hash function with 32-byte output. -/
def Out32 (G : Bytes → Bytes) : Prop := ∀ m, (G m).length = 32

theorem Spec.Collides.mono {G : Bytes → Bytes} {cs ds : List HCall} (h : Collides G cs) (hs : cs ⊆ ds) : Collides G ds := by
  obtain ⟨c, hc, d, hd, h1, h2⟩ := h
  exact ⟨c, hs hc, d, hs hd, h1, h2⟩

theorem xor_inj : ∀ {x y m : Bytes}, x.length = y.length → x.length ≤ m.length → Spec.xor x m = Spec.xor y m → x = y
  | [], [], _, _, _, _ => rfl
  | [], _ :: _, _, h, _, _ => by simp at h
  | _ :: _, [], _, h, _, _ => by simp at h
  | a :: x, b :: y, [], _, h, _ => by simp at h
  | a :: x, b :: y, c :: m, h1, h2, h => by
    simp only [Spec.xor, List.zipWith_cons_cons, List.cons.injEq] at h
    have e1 : a = b := by
      have := congrArg (· ^^^ c) h.1
      simpa [UInt8.xor_assoc] using this
    have e2 := xor_inj (m := m) (by simpa using h1) (by simpa using h2) h.2
    rw [e1, e2]

theorem PRF_len {G : Bytes → Bytes} (hG : Out32 G) (k m : Bytes) : (PRF G k m).length = 32 := hG _

theorem PRF_cases {G : Bytes → Bytes} {k m m' : Bytes} {cs : List HCall} (h1 : .prf k m ∈ cs) (h2 : .prf k m' ∈ cs)
    (h : PRF G k m = PRF G k m') : m = m' ∨ Collides G cs := by
  by_cases e : (HCall.prf k m).input = (HCall.prf k m').input
  · left
    simp only [HCall.input] at e
    exact List.append_cancel_left e
  · exact Or.inr ⟨_, h1, _, h2, e, h⟩

/-- Equal values of F at one address come from equal arguments, or there is a collision. -/
theorem F_inj {G : Bytes → Bytes} (hG : Out32 G) {seed : Bytes} {t a b c : Nat} {x y : Bytes} (hx : x.length = 32)
    (hy : y.length = 32) (h : F G seed t a b c x = F G seed t a b c y) :
    x = y ∨ Collides G (FCalls G seed t a b c x ++ FCalls G seed t a b c y) := by
  by_cases e : (HCall.f (PRF G seed (address t a b c 0)) (Spec.xor x (PRF G seed (address t a b c 1)))).input =
      (HCall.f (PRF G seed (address t a b c 0)) (Spec.xor y (PRF G seed (address t a b c 1)))).input
  · left
    simp only [HCall.input] at e
    have e := List.append_cancel_left e
    exact xor_inj (by omega) (by rw [PRF_len hG]; omega) e
  · exact Or.inr ⟨_, by simp [FCalls], _, by simp [FCalls], e, h⟩

/-- Equal values of H come from equal addresses and arguments, or there is a collision. -/
theorem H_inj {G : Bytes → Bytes} (hG : Out32 G) {seed : Bytes} {t a b c c' : Nat} (ht : t < 2 ^ 32) (ha : a < 2 ^ 32)
    (hb : b < 2 ^ 32) (hc : c < 2 ^ 32) (hc' : c' < 2 ^ 32) {l r l' r' : Bytes} (hl : l.length = 32)
    (hr : r.length = 32) (hl' : l'.length = 32) (hr' : r'.length = 32)
    (h : H G seed t a b c l r = H G seed t a b c' l' r') :
    (c = c' ∧ l = l' ∧ r = r') ∨ Collides G (HCalls G seed t a b c l r ++ HCalls G seed t a b c' l' r') := by
  by_cases e : (HCall.h (PRF G seed (address t a b c 0)) (Spec.xor (l ++ r)
        (PRF G seed (address t a b c 1) ++ PRF G seed (address t a b c 2)))).input =
      (HCall.h (PRF G seed (address t a b c' 0)) (Spec.xor (l' ++ r')
        (PRF G seed (address t a b c' 1) ++ PRF G seed (address t a b c' 2)))).input
  · have e0 := e
    simp only [HCall.input, List.append_assoc] at e
    have e := List.append_cancel_left e
    obtain ⟨e1, e2⟩ := List.append_inj e (by rw [PRF_len hG, PRF_len hG])
    rcases PRF_cases (cs := HCalls G seed t a b c l r ++ HCalls G seed t a b c' l' r') (by simp [HCalls])
      (by simp [HCalls]) e1 with e3 | e3
    · obtain ⟨_, _, _, rfl, _⟩ := address_inj ⟨ht, ha, hb, hc, by omega⟩ ⟨ht, ha, hb, hc', by omega⟩ e3
      left
      have := xor_inj (by simp; omega) (by rw [List.length_append, List.length_append, PRF_len hG, PRF_len hG]; omega) e2
      obtain ⟨rfl, rfl⟩ := List.append_inj this (by omega)
      exact ⟨rfl, rfl, rfl⟩
    · exact Or.inr e3
  · exact Or.inr ⟨_, by simp [HCalls], _, by simp [HCalls], e, h⟩

theorem H_len {G : Bytes → Bytes} (hG : Out32 G) (seed : Bytes) (t a b c : Nat) (l r : Bytes) :
    (H G seed t a b c l r).length = 32 := hG _

theorem F_len {G : Bytes → Bytes} (hG : Out32 G) (seed : Bytes) (t a b c : Nat) (x : Bytes) :
    (F G seed t a b c x).length = 32 := hG _

theorem chain_len {G : Bytes → Bytes} (hG : Out32 G) (seed : Bytes) (i ch n : Nat) : ∀ (s : Nat) (x : Bytes),
    x.length = 32 → (chain G seed i ch s n x).length = 32 := by
  induction n with
  | zero => intro s x h; exact h
  | succ n ih => intro s x _; exact ih _ _ (F_len hG ..)

/-- Chains of the same length from the same position. -/
theorem chain_inj {G : Bytes → Bytes} (hG : Out32 G) {seed : Bytes} {i ch : Nat} (n : Nat) : ∀ (s : Nat) (x y : Bytes),
    x.length = 32 → y.length = 32 → chain G seed i ch s n x = chain G seed i ch s n y →
    x = y ∨ Collides G (chainCalls G seed i ch s n x ++ chainCalls G seed i ch s n y) := by
  induction n with
  | zero => intro s x y _ _ h; exact Or.inl h
  | succ n ih =>
    intro s x y hx hy h
    simp only [chain] at h
    rcases ih _ _ _ (F_len hG ..) (F_len hG ..) h with e | e
    · rcases F_inj hG hx hy e with e | e
      · exact Or.inl e
      · refine Or.inr (e.mono ?_)
        simp only [chainCalls]
        intro z hz
        simp only [List.mem_append] at hz ⊢
        tauto
    · refine Or.inr (e.mono ?_)
      simp only [chainCalls]
      intro z hz
      simp only [List.mem_append] at hz ⊢
      tauto

theorem chainCalls_add (G : Bytes → Bytes) (seed : Bytes) (i ch m n : Nat) : ∀ (s : Nat) (x : Bytes),
    chainCalls G seed i ch s (m + n) x =
      chainCalls G seed i ch s m x ++ chainCalls G seed i ch (s + m) n (chain G seed i ch s m x) := by
  induction m with
  | zero => intro s x; simp [chainCalls, chain]
  | succ m ih =>
    intro s x
    rw [show m + 1 + n = (m + n) + 1 by omega]
    simp only [chainCalls, chain, ih, List.append_assoc, show s + 1 + m = s + (m + 1) by omega]

/-- Two values at positions `d ≤ e` of a chain that lead to the same end: the first leads to the second. -/
theorem chain_meet {G : Bytes → Bytes} (hG : Out32 G) {seed : Bytes} {i ch d e w : Nat} (hde : d ≤ e) (he : e ≤ w)
    {x y : Bytes} (hx : x.length = 32) (hy : y.length = 32)
    (h : chain G seed i ch d (w - d) x = chain G seed i ch e (w - e) y) :
    chain G seed i ch d (e - d) x = y ∨
      Collides G (chainCalls G seed i ch d (w - d) x ++ chainCalls G seed i ch e (w - e) y) := by
  have e1 := chain_add G seed i ch (e - d) (w - e) d x
  rw [show d + (e - d) = e by omega, show e - d + (w - e) = w - d by omega] at e1
  rw [← e1] at h
  rcases chain_inj hG (w - e) e _ _ (chain_len hG _ _ _ _ _ _ hx) hy h with r | r
  · exact Or.inl r
  · refine Or.inr (r.mono ?_)
    have e2 := chainCalls_add G seed i ch (e - d) (w - e) d x
    rw [show d + (e - d) = e by omega, show e - d + (w - e) = w - d by omega] at e2
    rw [e2]
    intro z hz
    simp only [List.mem_append] at hz ⊢
    tauto

/-- One level of the L-tree. -/
theorem pairUp_inj {G : Bytes → Bytes} (hG : Out32 G) {seed : Bytes} {i ht : Nat} (hi : i < 2 ^ 32) (hh : ht < 2 ^ 32) :
    ∀ (l l' : List Bytes) (j : Nat), j + l.length < 2 ^ 32 → l.length = l'.length → (∀ x ∈ l, x.length = 32) →
      (∀ x ∈ l', x.length = 32) →
      pairUp (fun j => H G seed 1 i ht j) j l = pairUp (fun j => H G seed 1 i ht j) j l' →
      l = l' ∨ Collides G (pairUpCalls G seed i ht j l ++ pairUpCalls G seed i ht j l')
  | [], [], _, _, _, _, _, _ => Or.inl rfl
  | [_], [_], _, _, _, _, _, h => Or.inl h
  | a :: b :: l, a' :: b' :: l', j, hj, hl, hx, hx', h => by
    simp only [pairUp, List.cons.injEq] at h
    simp only [List.length_cons] at hj hl
    rcases H_inj hG (by omega) hi hh (by omega) (by omega) (hx a (by simp)) (hx b (by simp)) (hx' a' (by simp))
      (hx' b' (by simp)) h.1 with ⟨_, rfl, rfl⟩ | e
    · rcases pairUp_inj hG hi hh l l' (j + 1) (by omega) (by omega) (fun x hx1 => hx x (by simp [hx1]))
        (fun x hx1 => hx' x (by simp [hx1])) h.2 with rfl | e
      · exact Or.inl rfl
      · refine Or.inr (e.mono ?_)
        simp only [pairUpCalls]
        intro z hz
        simp only [List.mem_append] at hz ⊢
        tauto
    · refine Or.inr (e.mono ?_)
      simp only [pairUpCalls]
      intro z hz
      simp only [List.mem_append] at hz ⊢
      tauto
  | [], _ :: _, _, _, hl, _, _, _ => by simp at hl
  | _ :: _, [], _, _, hl, _, _, _ => by simp at hl
  | [_], _ :: _ :: _, _, _, hl, _, _, _ => by simp at hl
  | _ :: _ :: _, [_], _, _, hl, _, _, _ => by simp at hl

theorem mem_pairUp {G : Bytes → Bytes} (hG : Out32 G) {seed : Bytes} {i ht : Nat} : ∀ (l : List Bytes) (j : Nat),
    (∀ x ∈ l, x.length = 32) → ∀ x ∈ pairUp (fun j => H G seed 1 i ht j) j l, x.length = 32
  | [], _, h => h
  | [_], _, h => h
  | a :: b :: l, j, h => by
    intro x hx
    simp only [pairUp, List.mem_cons] at hx
    rcases hx with rfl | hx
    · exact H_len hG ..
    · exact mem_pairUp hG l (j + 1) (fun y hy => h y (by simp [hy])) x hx

theorem ltree_inj {G : Bytes → Bytes} (hG : Out32 G) {seed : Bytes} {i : Nat} (hi : i < 2 ^ 32) (n : Nat) :
    ∀ (ht : Nat) (l l' : List Bytes), l.length = n → l'.length = n → 1 ≤ n → ht + n < 2 ^ 32 →
      (∀ x ∈ l, x.length = 32) → (∀ x ∈ l', x.length = 32) → ltree G seed i ht l = ltree G seed i ht l' →
      l = l' ∨ Collides G (ltreeCalls G seed i ht l ++ ltreeCalls G seed i ht l') := by
  induction n using Nat.strongRecOn with
  | _ n ih =>
    intro ht l l' hl hl' h1 hn hx hx' h
    rw [ltree, ltree.eq_def G seed i ht l'] at h
    rw [ltreeCalls, ltreeCalls.eq_def G seed i ht l']
    by_cases hn1 : 1 < n
    · simp only [hl, hl', hn1, dite_true] at h ⊢
      rcases ih ((n + 1) / 2) (by omega) (ht + 1) _ _ (by rw [length_pairUp, hl]) (by rw [length_pairUp, hl'])
        (by omega) (by omega) (mem_pairUp hG l 0 hx) (mem_pairUp hG l' 0 hx') h with e | e
      · rcases pairUp_inj hG hi (by omega) l l' 0 (by omega) (by omega) hx hx' e with e | e
        · exact Or.inl e
        · refine Or.inr (e.mono ?_)
          intro z hz
          simp only [List.mem_append] at hz ⊢
          tauto
      · refine Or.inr (e.mono ?_)
        intro z hz
        simp only [List.mem_append] at hz ⊢
        tauto
    · simp only [hl, hl', hn1, dite_false] at h
      have : n = 1 := by omega
      match l, l', hl, hl' with
      | [a], [b], _, _ => left; simp at h; rw [h]
      | [], _, hl, _ => simp at hl; omega
      | _ :: _ :: _, _, hl, _ => simp at hl; omega
      | [_], [], _, hl' => simp at hl'; omega
      | [_], _ :: _ :: _, _, hl' => simp at hl'; omega

/-- One step up the tree, as a function of the side. -/
theorem up_inj {G : Bytes → Bytes} (hG : Out32 G) {seed : Bytes} {l i : Nat} (hl : l < 2 ^ 32) (hi : i < 2 ^ 32)
    {x a x' a' : Bytes} (hx : x.length = 32) (ha : a.length = 32) (hx' : x'.length = 32) (ha' : a'.length = 32)
    (h : (if i % 2 = 0 then H G seed 2 0 l (i / 2) x a else H G seed 2 0 l (i / 2) a x) =
      (if i % 2 = 0 then H G seed 2 0 l (i / 2) x' a' else H G seed 2 0 l (i / 2) a' x')) :
    (x = x' ∧ a = a') ∨ Collides G
      ((if i % 2 = 0 then HCalls G seed 2 0 l (i / 2) x a else HCalls G seed 2 0 l (i / 2) a x) ++
       (if i % 2 = 0 then HCalls G seed 2 0 l (i / 2) x' a' else HCalls G seed 2 0 l (i / 2) a' x')) := by
  by_cases hp : i % 2 = 0
  · simp only [hp, if_true] at h ⊢
    rcases H_inj hG (by omega) (by omega) hl (by omega) (by omega) hx ha hx' ha' h with ⟨_, r1, r2⟩ | r
    · exact Or.inl ⟨r1, r2⟩
    · exact Or.inr r
  · simp only [hp, if_false] at h ⊢
    rcases H_inj hG (by omega) (by omega) hl (by omega) (by omega) ha hx ha' hx' h with ⟨_, r1, r2⟩ | r
    · exact Or.inl ⟨r2, r1⟩
    · exact Or.inr r

theorem climb_inj {G : Bytes → Bytes} (hG : Out32 G) {seed : Bytes} : ∀ (path path' : List Bytes) (l i : Nat)
    (x x' : Bytes), path.length = path'.length → l + path.length < 2 ^ 32 → i < 2 ^ 32 → x.length = 32 →
      x'.length = 32 → (∀ y ∈ path, y.length = 32) → (∀ y ∈ path', y.length = 32) →
      climb G seed l i x path = climb G seed l i x' path' →
      (x = x' ∧ path = path') ∨ Collides G (climbCalls G seed l i x path ++ climbCalls G seed l i x' path')
  | [], [], _, _, _, _, _, _, _, _, _, _, _, h => Or.inl ⟨h, rfl⟩
  | a :: path, a' :: path', l, i, x, x', hlen, hl, hi, hx, hx', hp, hp', h => by
    simp only [climb] at h
    simp only [List.length_cons] at hl hlen
    have L : ∀ (x a : Bytes), (if i % 2 = 0 then H G seed 2 0 l (i / 2) x a else H G seed 2 0 l (i / 2) a x).length = 32 := by
      intro x a; split <;> exact H_len hG ..
    rcases climb_inj hG path path' (l + 1) (i / 2) _ _ (by omega) (by omega) (by omega) (L x a) (L x' a')
      (fun y hy => hp y (by simp [hy])) (fun y hy => hp' y (by simp [hy])) h with ⟨e, rfl⟩ | e
    · rcases up_inj hG (by omega) hi hx (hp a (by simp)) hx' (hp' a' (by simp)) e with ⟨rfl, rfl⟩ | e
      · exact Or.inl ⟨rfl, rfl⟩
      · refine Or.inr (e.mono ?_)
        simp only [climbCalls]
        intro z hz
        simp only [List.mem_append] at hz ⊢
        tauto
    · refine Or.inr (e.mono ?_)
      simp only [climbCalls]
      intro z hz
      simp only [List.mem_append] at hz ⊢
      tauto
  | [], _ :: _, _, _, _, _, h, _, _, _, _, _, _, _ => by simp at h
  | _ :: _, [], _, _, _, _, h, _, _, _, _, _, _, _ => by simp at h

theorem leaf_len {G : Bytes → Bytes} (hG : Out32 G) (w len : Nat) (sk ps : Bytes) (i : Nat) (h : 1 ≤ len) :
    (leaf G w len sk ps i).length = 32 := by
  have : ∀ (n ht : Nat) (l : List Bytes), l.length = n → 1 ≤ n → (∀ x ∈ l, x.length = 32) →
      (ltree G ps i ht l).length = 32 := by
    intro n
    induction n using Nat.strongRecOn with
    | _ n ih =>
      intro ht l hl h1 hx
      rw [ltree]
      by_cases h : 1 < l.length
      · simp only [h, dite_true]
        exact ih ((l.length + 1) / 2) (by omega) _ _ (length_pairUp ..) (by omega) (mem_pairUp hG l 0 hx)
      · simp only [h, dite_false]
        match l, hl with
        | [a], _ => exact hx a (by simp)
        | [], hl => simp at hl; omega
        | _ :: _ :: _, _ => simp at h
  refine this len 0 _ (length_wotsPk ..) h ?_
  intro x hx
  simp only [wotsPk, List.mem_map] at hx
  obtain ⟨ch, _, rfl⟩ := hx
  exact chain_len hG _ _ _ _ _ _ (hG _)

theorem node_len {G : Bytes → Bytes} (hG : Out32 G) (w len : Nat) (sk ps : Bytes) (h : 1 ≤ len) (l i : Nat) :
    (node G w len sk ps l i).length = 32 := by
  cases l with
  | zero => exact leaf_len hG w len sk ps i h
  | succ l => exact H_len hG ..

/-- The calls for a node are among those for the root. -/
theorem nodeCalls_sub (G : Bytes → Bytes) (w len : Nat) (sk ps : Bytes) (k : Nat) : ∀ (l i : Nat),
    nodeCalls G w len sk ps l i ⊆ nodeCalls G w len sk ps (l + k) (i / 2 ^ k) := by
  induction k with
  | zero => intro l i; simp
  | succ k ih =>
    intro l i
    refine List.Subset.trans ?_ (show nodeCalls G w len sk ps (l + 1) (i / 2) ⊆ _ from ?_)
    · simp only [nodeCalls]
      intro z hz
      simp only [List.mem_append]
      rcases Nat.mod_two_eq_zero_or_one i with e | e
      · left; left; rwa [show 2 * (i / 2) = i by omega]
      · left; right; rwa [show 2 * (i / 2) + 1 = i by omega]
    · have := ih (l + 1) (i / 2)
      rwa [Nat.div_div_eq_div_mul, show 2 * 2 ^ k = 2 ^ (k + 1) by rw [Nat.pow_succ]; omega,
        show l + 1 + k = l + (k + 1) by omega] at this

/-- A value with a path that leads to a node of the honest tree is the honest node with the honest path, and belongs to
that node. -/
theorem climb_honest {G : Bytes → Bytes} (hG : Out32 G) {w len : Nat} {sk ps : Bytes} (h1 : 1 ≤ len) :
    ∀ (path : List Bytes) (l i j : Nat) (x : Bytes), path ≠ [] → l + path.length < 2 ^ 32 → i < 2 ^ 32 → j < 2 ^ 32 →
      x.length = 32 → (∀ y ∈ path, y.length = 32) → climb G ps l i x path = node G w len sk ps (l + path.length) j →
      (i / 2 ^ path.length = j ∧ x = node G w len sk ps l i ∧
        path = (List.range path.length).map fun k => node G w len sk ps (l + k) (sibling (i / 2 ^ k))) ∨
      Collides G (climbCalls G ps l i x path ++ nodeCalls G w len sk ps (l + path.length) j)
  | [], _, _, _, _, h, _, _, _, _, _, _ => absurd rfl h
  | a :: path, l, i, j, x, _, hl, hi, hj, hx, hp, h => by
    simp only [climb] at h
    simp only [List.length_cons] at hl h ⊢
    have L : (if i % 2 = 0 then H G ps 2 0 l (i / 2) x a else H G ps 2 0 l (i / 2) a x).length = 32 := by
      split <;> exact H_len hG ..
    -- the parent
    have step : (i / 2 / 2 ^ path.length = j ∧
          (if i % 2 = 0 then H G ps 2 0 l (i / 2) x a else H G ps 2 0 l (i / 2) a x) =
            node G w len sk ps (l + 1) (i / 2) ∧
          path = (List.range path.length).map fun k => node G w len sk ps (l + 1 + k) (sibling (i / 2 / 2 ^ k))) ∨
        Collides G (climbCalls G ps l i x (a :: path) ++ nodeCalls G w len sk ps (l + (path.length + 1)) j) := by
      by_cases hpath : path = []
      · subst hpath
        replace h : _ = node G w len sk ps (l + 1) j := h
        simp only [climb, node] at h
        have ha := hp a (by simp)
        have N := fun k => node_len hG w len sk ps h1 l k
        by_cases hev : i % 2 = 0
        · simp only [hev, if_true] at h ⊢
          rcases H_inj hG (by omega) (by omega) (by omega) (by omega) (by omega) hx ha (N _) (N _) h with ⟨e, _, _⟩ | e
          · left; refine ⟨by simpa using e, by rw [h, e, node], by simp⟩
          · refine Or.inr (e.mono ?_)
            simp only [climbCalls, hev, if_true, nodeCalls, List.length_nil]
            intro z hz
            simp only [List.mem_append] at hz ⊢
            tauto
        · simp only [hev, if_false] at h ⊢
          rcases H_inj hG (by omega) (by omega) (by omega) (by omega) (by omega) ha hx (N _) (N _) h with ⟨e, _, _⟩ | e
          · left; refine ⟨by simpa using e, by rw [h, e, node], by simp⟩
          · refine Or.inr (e.mono ?_)
            simp only [climbCalls, hev, if_false, nodeCalls, List.length_nil]
            intro z hz
            simp only [List.mem_append] at hz ⊢
            tauto
      · have := climb_honest hG (w := w) (len := len) (sk := sk) (ps := ps) h1 path (l + 1) (i / 2) j _ hpath (by omega)
          (by omega) hj L (fun y hy => hp y (by simp [hy]))
          (by rw [h, show l + 1 + path.length = l + (path.length + 1) by omega])
        rcases this with r | r
        · exact Or.inl r
        · refine Or.inr (r.mono ?_)
          rw [show l + 1 + path.length = l + (path.length + 1) by omega]
          simp only [climbCalls]
          intro z hz
          simp only [List.mem_append] at hz ⊢
          tauto
    rcases step with ⟨e1, e2, e3⟩ | r
    · have ha := hp a (by simp)
      have N := fun k => node_len hG w len sk ps h1 l k
      have hnode : node G w len sk ps (l + 1) (i / 2) = (if i % 2 = 0 then
          H G ps 2 0 l (i / 2) (node G w len sk ps l i) (node G w len sk ps l (sibling i)) else
          H G ps 2 0 l (i / 2) (node G w len sk ps l (sibling i)) (node G w len sk ps l i)) := by
        rw [node]
        by_cases hev : i % 2 = 0
        · rw [if_pos hev, sibling, if_pos hev, show 2 * (i / 2) = i by omega]
        · rw [if_neg hev, sibling, if_neg hev, show 2 * (i / 2) = i - 1 by omega, show i - 1 + 1 = i by omega]
      rw [hnode] at e2
      have hsub : nodeCalls G w len sk ps (l + 1) (i / 2) ⊆ nodeCalls G w len sk ps (l + (path.length + 1)) j := by
        have := nodeCalls_sub G w len sk ps path.length (l + 1) (i / 2)
        rwa [e1, show l + 1 + path.length = l + (path.length + 1) by omega] at this
      have hin : (if i % 2 = 0 then
          HCalls G ps 2 0 l (i / 2) (node G w len sk ps l i) (node G w len sk ps l (sibling i)) else
          HCalls G ps 2 0 l (i / 2) (node G w len sk ps l (sibling i)) (node G w len sk ps l i)) ⊆
          nodeCalls G w len sk ps (l + 1) (i / 2) := by
        intro z hz
        simp only [nodeCalls, List.mem_append]
        right
        by_cases hev : i % 2 = 0
        · rw [if_pos hev, sibling, if_pos hev] at hz
          rwa [show 2 * (i / 2) = i by omega]
        · rw [if_neg hev, sibling, if_neg hev] at hz
          rwa [show 2 * (i / 2) = i - 1 by omega, show i - 1 + 1 = i by omega]
      rcases up_inj hG (by omega) hi hx ha (N i) (N (sibling i)) e2 with ⟨rfl, r2⟩ | r
      · left
        refine ⟨?_, rfl, ?_⟩
        · rw [← e1, Nat.div_div_eq_div_mul, Nat.pow_succ, Nat.mul_comm]
        · rw [List.range_succ_eq_map, List.map_cons, List.map_map, r2]
          congr 1
          · simp
          · conv_lhs => rw [e3]
            apply List.map_congr_left
            intro k _
            simp only [Function.comp]
            rw [show l + (k + 1) = l + 1 + k by omega, Nat.div_div_eq_div_mul, Nat.pow_succ, Nat.mul_comm 2]
      · refine Or.inr (r.mono ?_)
        simp only [climbCalls]
        intro z hz
        simp only [List.mem_append] at hz ⊢
        rcases hz with hz | hz
        · left; left; exact hz
        · right; exact hsub (hin hz)
    · exact Or.inr r

end Qrl
