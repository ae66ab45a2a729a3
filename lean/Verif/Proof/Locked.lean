import Verif.Spec.Threads
/-!
# Calls made one at a time, whoever makes them

For any object whose calls are sequences of steps: if no call moves while another is between its first and last step, the
schedule is a history of whole calls.
-/

namespace Qrl

theorem runCalls_snoc {σ : Type} (call : σ → Call → Option (Reply × σ)) (cs : List Call) (c : Call) : ∀ (o : σ) rs o1 r o2,
    runCalls call o cs = some (rs, o1) → call o1 c = some (r, o2) → runCalls call o (cs ++ [c]) = some (rs ++ [r], o2) := by
  induction cs with
  | nil =>
    intro o rs o1 r o2 h1 h2
    cases h1
    simp [runCalls, h2]
  | cons d cs ih =>
    intro o rs o1 r o2 h1 h2
    rw [List.cons_append]
    simp only [runCalls] at h1 ⊢
    cases hd : call o d with
    | none => rw [hd] at h1; cases h1
    | some x =>
      obtain ⟨r', o'⟩ := x
      rw [hd] at h1
      simp only at h1 ⊢
      cases hr : runCalls call o' cs with
      | none => rw [hr] at h1; cases h1
      | some y =>
        obtain ⟨rs', o''⟩ := y
        rw [hr] at h1
        simp only [Option.some.injEq, Prod.mk.injEq] at h1
        obtain ⟨rfl, rfl⟩ := h1
        rw [ih o' rs' o'' r o2 hr h2]
        rfl

/-- `n` steps of one call. -/
def iterStep {σ π : Type} (step : σ → π → σ × π) : Nat → σ × π → σ × π
  | 0, x => x
  | n + 1, x => iterStep step n (step x.1 x.2)

theorem iterStep_add {σ π : Type} (step : σ → π → σ × π) (m n : Nat) : ∀ x,
    iterStep step (m + n) x = iterStep step n (iterStep step m x) := by
  induction m with
  | zero => intro x; rw [Nat.zero_add]; rfl
  | succ m ih => intro x; rw [show m + 1 + n = (m + n) + 1 by omega, iterStep, ih, iterStep]

theorem iterStep_fix {σ π : Type} (step : σ → π → σ × π) (x : σ × π) (h : step x.1 x.2 = x) (n : Nat) : iterStep step n x = x := by
  induction n with
  | zero => rfl
  | succ n ih => rw [iterStep, h, ih]

/-- What is needed of a kind of object: how its calls start and end, and that a call alone is the call as a whole. -/
structure Machine (σ π : Type) where
  step : σ → π → σ × π
  start : Call → π
  done : Reply → π
  idle : π → Prop
  call : σ → Call → Option (Reply × σ)
  good : σ → Prop
  steps : Nat
  idle_iff : ∀ pc, idle pc ↔ (∃ c, pc = start c) ∨ ∃ r, pc = done r
  done_inj : ∀ r r', done r = done r' → r = r'
  start_ne_done : ∀ c r, start c ≠ done r
  start_inj : ∀ c c', start c = start c' → c = c'
  done_fix : ∀ o r, step o (done r) = (o, done r)
  no_restart : ∀ o pc c, (step o pc).2 ≠ start c
  alone : ∀ o c, good o →
    (∃ r o', call o c = some (r, o') ∧ good o' ∧ iterStep step steps (o, start c) = (o', done r)) ∨
    (call o c = none ∧ ∃ o' pc, iterStep step steps (o, start c) = (o', pc) ∧ step o' pc = (o', pc) ∧ ¬ idle pc)

section
variable {σ π : Type} (M : Machine σ π)

/-- The calls that are over, in the order in which they ended, with their replies, are a history of whole calls. -/
structure Lin (calls : List Call) (o : σ) (pcs : List π) (order : List (Nat × Call × Reply)) (o2 : σ) : Prop where
  nodup : (order.map (·.1)).Nodup
  mem : ∀ x ∈ order, calls[x.1]? = some x.2.1 ∧ pcs[x.1]? = some (M.done x.2.2)
  all : ∀ t r, pcs[t]? = some (M.done r) → ∃ x ∈ order, x.1 = t
  run : runCalls M.call o (order.map (·.2.1)) = some (order.map (·.2.2), o2)
  good : M.good o2

/-- The state of a schedule that has kept to mutual exclusion. -/
def LInv (calls : List Call) (o : σ) (x : σ × List π) : Prop :=
  ∃ order o2, Lin M calls o x.2 order o2 ∧ x.2.length = calls.length ∧
    ((x.1 = o2 ∧ ∀ (t : Nat) pc, x.2[t]? = some pc → (∃ c, calls[t]? = some c ∧ pc = M.start c) ∨ ∃ r, pc = M.done r) ∨
      ∃ (a : Nat) (c : Call) (pc : π) (n : Nat), calls[a]? = some c ∧ x.2[a]? = some pc ∧ (x.1, pc) = iterStep M.step n (o2, M.start c) ∧ ¬ M.idle pc ∧
        ∀ (t : Nat) pc, t ≠ a → x.2[t]? = some pc → (∃ c, calls[t]? = some c ∧ pc = M.start c) ∨ ∃ r, pc = M.done r)

theorem done_of_iter {o2 o' : σ} {c : Call} {r : Reply} {n : Nat} (hg : M.good o2)
    (h : iterStep M.step n (o2, M.start c) = (o', M.done r)) : M.call o2 c = some (r, o') ∧ M.good o' := by
  have h1 := iterStep_add M.step n M.steps (o2, M.start c)
  rw [h, iterStep_fix M.step (o', M.done r) (M.done_fix o' r), Nat.add_comm, iterStep_add] at h1
  rcases M.alone o2 c hg with ⟨r', o'', e1, e2, e3⟩ | ⟨_, o'', pc, e3, e4, e5⟩
  · rw [e3, iterStep_fix M.step (o'', M.done r') (M.done_fix o'' r')] at h1
    injection h1 with h2 h3
    rw [e1, ← h2, M.done_inj _ _ h3]
    exact ⟨rfl, h2 ▸ e2⟩
  · rw [e3, iterStep_fix M.step (o'', pc) e4] at h1
    injection h1 with h2 h3
    exact absurd ((M.idle_iff _).mpr (Or.inr ⟨r, h3⟩)) e5

/-- The call that is not at its end makes a step. -/
theorem LInv.move {calls : List Call} {o o1 o2 : σ} {pcs : List π} {order : List (Nat × Call × Reply)} {a n : Nat} {c : Call}
    {pc : π} (L : Lin M calls o pcs order o2) (hl : pcs.length = calls.length) (hc : calls[a]? = some c)
    (hpc : pcs[a]? = some pc) (hit : (o1, pc) = iterStep M.step n (o2, M.start c)) (hnd : ∀ r, pc ≠ M.done r)
    (hoth : ∀ t pc, t ≠ a → pcs[t]? = some pc → (∃ c, calls[t]? = some c ∧ pc = M.start c) ∨ ∃ r, pc = M.done r) :
    LInv M calls o ((M.step o1 pc).1, pcs.set a (M.step o1 pc).2) := by
  have halt : a < pcs.length := (List.getElem?_eq_some_iff.mp hpc).1
  have hit' : iterStep M.step (n + 1) (o2, M.start c) = M.step o1 pc := by
    rw [iterStep_add, ← hit]; rfl
  have hget : ∀ t, (pcs.set a (M.step o1 pc).2)[t]? = if t = a then some (M.step o1 pc).2 else pcs[t]? := by
    intro t
    rw [List.getElem?_set]
    by_cases h : a = t
    · subst h; rw [if_pos rfl, if_pos halt, if_pos rfl]
    · rw [if_neg h, if_neg (fun e => h e.symm)]
  have hnot : ∀ x ∈ order, x.1 ≠ a := by
    intro x hx e
    have := (L.mem x hx).2
    rw [e, hpc] at this
    exact hnd _ (Option.some.inj this)
  by_cases hd : ∃ r, (M.step o1 pc).2 = M.done r
  · obtain ⟨r, hr⟩ := hd
    have e : iterStep M.step (n + 1) (o2, M.start c) = ((M.step o1 pc).1, M.done r) := by rw [hit', ← hr]
    obtain ⟨e1, e2⟩ := done_of_iter M L.good e
    refine ⟨order ++ [(a, c, r)], (M.step o1 pc).1, ⟨?_, ?_, ?_, ?_, e2⟩, by simpa using hl, Or.inl ⟨rfl, ?_⟩⟩
    · rw [List.map_append, List.nodup_append]
      refine ⟨L.nodup, by simp, ?_⟩
      intro x hx y hy
      obtain ⟨z, hz, rfl⟩ := List.mem_map.mp hx
      simp only [List.map_cons, List.map_nil, List.mem_singleton] at hy
      subst hy
      exact hnot z hz
    · intro x hx
      rcases List.mem_append.mp hx with hx | hx
      · obtain ⟨g1, g2⟩ := L.mem x hx
        refine ⟨g1, ?_⟩
        simp only [hget, if_neg (hnot x hx), g2]
      · rw [List.mem_singleton] at hx
        subst hx
        refine ⟨hc, ?_⟩
        show (pcs.set a (M.step o1 pc).2)[a]? = _
        rw [hget, if_pos rfl, hr]
    · intro t r' h
      simp only [hget] at h
      by_cases ht : t = a
      · exact ⟨(a, c, r), by simp, ht.symm⟩
      · rw [if_neg ht] at h
        obtain ⟨x, hx, hx2⟩ := L.all t r' h
        exact ⟨x, List.mem_append_left _ hx, hx2⟩
    · rw [List.map_append, List.map_append]
      exact runCalls_snoc M.call _ c o _ o2 r _ L.run e1
    · intro t pc' h
      simp only [hget] at h
      by_cases ht : t = a
      · rw [if_pos ht, hr] at h
        exact Or.inr ⟨r, (Option.some.inj h).symm⟩
      · rw [if_neg ht] at h
        exact hoth t pc' ht h
  · refine ⟨order, o2, ⟨L.nodup, ?_, ?_, L.run, L.good⟩, by simpa using hl, Or.inr ⟨a, c, (M.step o1 pc).2, n + 1, hc, ?_, ?_, ?_, ?_⟩⟩
    · intro x hx
      obtain ⟨g1, g2⟩ := L.mem x hx
      refine ⟨g1, ?_⟩
      simp only [hget, if_neg (hnot x hx), g2]
    · intro t r' h
      simp only [hget] at h
      by_cases ht : t = a
      · rw [if_pos ht] at h
        exact absurd ⟨r', Option.some.inj h⟩ hd
      · rw [if_neg ht] at h
        exact L.all t r' h
    · simp only [hget, if_pos trivial]
    · rw [hit']
    · intro hid
      rcases (M.idle_iff _).mp hid with ⟨c', e⟩ | h
      · exact M.no_restart _ _ _ e
      · exact hd h
    · intro t pc' ht h
      simp only [hget] at h
      rw [if_neg ht] at h
      exact hoth t pc' ht h

theorem LInv.step {calls : List Call} {o : σ} {x : σ × List π} (L : LInv M calls o x) (t : Nat)
    (hex : ∀ u pc, u ≠ t → x.2[u]? = some pc → M.idle pc) : LInv M calls o (runSchedule M.step [t] x) := by
  obtain ⟨o1, pcs⟩ := x
  rw [runSchedule]
  cases hpc : pcs[t]? with
  | none => exact L
  | some pc =>
    simp only [runSchedule]
    obtain ⟨order, o2, L1, hl, h | ⟨a, c, pc', n, h1, h2, h3, h4, h5⟩⟩ := L
    · obtain ⟨rfl, h⟩ := h
      rcases h t pc hpc with ⟨c, hc, rfl⟩ | ⟨r, rfl⟩
      · exact LInv.move M L1 hl hc hpc (n := 0) rfl (fun r => M.start_ne_done c r) (fun t' pc' _ h' => h t' pc' h')
      · rw [M.done_fix]
        have : pcs.set t (M.done r) = pcs := by
          obtain ⟨hlt, hx⟩ := List.getElem?_eq_some_iff.mp hpc
          rw [← hx, List.set_getElem_self]
        simp only [this]
        exact ⟨order, o1, L1, hl, Or.inl ⟨rfl, h⟩⟩
    · by_cases hta : t = a
      · subst hta
        simp only at h2
        rw [hpc] at h2
        cases h2
        refine LInv.move M L1 hl h1 hpc h3 ?_ h5
        intro r e
        exact h4 ((M.idle_iff _).mpr (Or.inr ⟨r, e⟩))
      · exact absurd (hex a pc' (fun e => hta e.symm) h2) h4

theorem LInv.all {calls : List Call} {o : σ} (ts : List Nat) : ∀ x, LInv M calls o x → Spec.Exclusive M.step M.idle ts x →
    LInv M calls o (runSchedule M.step ts x) := by
  induction ts with
  | nil => intro x h _; exact h
  | cons t ts ih =>
    intro x h hex
    obtain ⟨h1, h2⟩ := hex
    have := ih _ (h.step M t h1) h2
    obtain ⟨o1, pcs⟩ := x
    rw [runSchedule] at this ⊢
    cases hpc : pcs[t]? with
    | none => rw [hpc] at this; exact this
    | some pc => rw [hpc] at this; exact this

theorem LInv.start {calls : List Call} {o : σ} (hg : M.good o) : LInv M calls o (o, calls.map M.start) := by
  refine ⟨[], o, ⟨List.nodup_nil, by simp, ?_, rfl, hg⟩, by simp, Or.inl ⟨rfl, ?_⟩⟩
  · intro t r h
    rw [List.getElem?_map] at h
    cases hc : calls[t]? with
    | none => rw [hc] at h; cases h
    | some c => rw [hc] at h; exact absurd (Option.some.inj h) (M.start_ne_done c r)
  · intro t pc h
    simp only [List.getElem?_map] at h
    cases hc : calls[t]? with
    | none => rw [hc] at h; cases h
    | some c => rw [hc] at h; exact Or.inl ⟨c, rfl, (Option.some.inj h).symm⟩

/-- Under mutual exclusion a schedule is a history of whole calls: the calls that are over, in the order they ended, gave what
the history gives; the object is as that history left it whenever no call is under way; a call that is stuck is one the
history makes undefined. -/
theorem locked_history {calls : List Call} {o : σ} (hg : M.good o) (ts : List Nat)
    (hex : Spec.Exclusive M.step M.idle ts (o, calls.map M.start)) (o' : σ) (pcs : List π)
    (h : runSchedule M.step ts (o, calls.map M.start) = (o', pcs)) :
    ∃ (order : List (Nat × Call × Reply)) (o2 : σ), (order.map (·.1)).Nodup ∧
      (∀ x ∈ order, calls[x.1]? = some x.2.1 ∧ pcs[x.1]? = some (M.done x.2.2)) ∧
      (∀ (t : Nat) r, pcs[t]? = some (M.done r) → ∃ x ∈ order, x.1 = t) ∧
      runCalls M.call o (order.map (·.2.1)) = some (order.map (·.2.2), o2) ∧
      ((∀ (t : Nat) pc, pcs[t]? = some pc → M.idle pc) → o' = o2) ∧
      (∀ (t : Nat) pc, pcs[t]? = some pc → ¬ M.idle pc → (∀ o, M.step o pc = (o, pc)) →
        ∃ c, calls[t]? = some c ∧ M.call o2 c = none) := by
  have L := LInv.all M ts _ (LInv.start M (calls := calls) hg) hex
  rw [h] at L
  obtain ⟨order, o2, L1, hl, hcase⟩ := L
  refine ⟨order, o2, L1.nodup, L1.mem, L1.all, L1.run, ?_, ?_⟩
  · intro hid
    rcases hcase with ⟨e, _⟩ | ⟨a, c, pc, n, h1, h2, h3, h4, h5⟩
    · exact e
    · exact absurd (hid a pc h2) h4
  · intro t pc ht hni hfix
    rcases hcase with ⟨_, h5⟩ | ⟨a, c, pc', n, h1, h2, h3, h4, h5⟩
    · exfalso
      rcases h5 t pc ht with ⟨c, _, e⟩ | e
      · exact hni ((M.idle_iff _).mpr (Or.inl ⟨c, e⟩))
      · exact hni ((M.idle_iff _).mpr (Or.inr e))
    · by_cases hta : t = a
      · subst hta
        simp only at h2
        rw [ht] at h2
        cases h2
        refine ⟨c, h1, ?_⟩
        rcases M.alone o2 c L1.good with ⟨r, o'', e1, e2, e3⟩ | ⟨e, _⟩
        · exfalso
          have g1 := iterStep_add M.step n M.steps (o2, M.start c)
          rw [← h3, iterStep_fix M.step (o', pc) (hfix o'), Nat.add_comm, iterStep_add, e3,
            iterStep_fix M.step (o'', M.done r) (M.done_fix o'' r)] at g1
          injection g1 with g2 g3
          exact hni ((M.idle_iff _).mpr (Or.inr ⟨r, g3.symm⟩))
        · exact e
      · exfalso
        rcases h5 t pc hta ht with ⟨c, _, e⟩ | e
        · exact hni ((M.idle_iff _).mpr (Or.inl ⟨c, e⟩))
        · exact hni ((M.idle_iff _).mpr (Or.inr e))

end

end Qrl
