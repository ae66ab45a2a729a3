import Verif.Proof.Pool

import Mathlib.Data.List.Perm.Subperm
import Mathlib.Data.List.Count
import Mathlib.Data.List.Induction

namespace Qrl

open Outcome Spec

/-! ## Schedules -/

theorem run_last {cfg : PoolCfg} {s0 s : Pool} {tr : List Ev} {e : Ev} (h : PoolRun cfg s0 (tr ++ [e]) s) :
    ∃ s', PoolRun cfg s0 tr s' ∧ PoolStep cfg s' e s := by
  generalize ht : tr ++ [e] = tr' at h
  cases h with
  | refl => simp at ht
  | step h hs =>
    have := List.append_inj' ht rfl
    obtain ⟨rfl, h2⟩ := this
    cases h2
    exact ⟨_, h, hs⟩

theorem run_prefix {cfg : PoolCfg} {s0 s : Pool} {a : List Ev} : ∀ (b : List Ev), PoolRun cfg s0 (a ++ b) s →
    ∃ s', PoolRun cfg s0 a s' := by
  intro b
  induction b using List.reverseRecOn generalizing s with
  | nil => intro h; exact ⟨s, by simpa using h⟩
  | append_singleton b e ih =>
    intro h
    rw [← List.append_assoc] at h
    obtain ⟨s', h1, _⟩ := run_last h
    exact ih h1

theorem run_at {cfg : PoolCfg} {s0 s : Pool} {a b : List Ev} {e : Ev} (h : PoolRun cfg s0 (a ++ e :: b) s) :
    ∃ s1 s2, PoolRun cfg s0 a s1 ∧ PoolStep cfg s1 e s2 := by
  have : a ++ e :: b = (a ++ [e]) ++ b := by simp
  rw [this] at h
  obtain ⟨s2, h2⟩ := run_prefix b h
  obtain ⟨s1, h3, h4⟩ := run_last h2
  exact ⟨s1, s2, h3, h4⟩

theorem run_trans {cfg : PoolCfg} {s0 s1 s2 : Pool} {a b : List Ev} (h1 : PoolRun cfg s0 a s1)
    (h2 : PoolRun cfg s1 b s2) : PoolRun cfg s0 (a ++ b) s2 := by
  induction h2 with
  | refl => simpa using h1
  | step h hs ih => rw [← List.append_assoc]; exact .step ih hs

/-! ## The index a thread claimed last -/

/-- The index thread `t` claimed last. -/
def lastClaim (t : Nat) (tr : List Ev) : Option Nat :=
  tr.foldl (fun r e => match e with
    | .claim u i => if u = t then some i else r
    | _ => r) none

theorem lastClaim_snoc (t : Nat) (tr : List Ev) (e : Ev) : lastClaim t (tr ++ [e]) =
    (match e with
      | .claim u i => if u = t then some i else lastClaim t tr
      | _ => lastClaim t tr) := by
  rw [lastClaim, List.foldl_append]; rfl

/-- The index the thread holds, in any of its phases. -/
def Pc.claimed? : Pc → Option Nat
  | .fill _ _ _ g | .drop _ _ g | .unlockHit _ g | .wait _ g | .unlockMiss g | .build g | .unwind _ g => some g
  | _ => none

theorem last_other {cfg : PoolCfg} {s s' : Pool} {e : Ev} {tr : List Ev} (hs : PoolStep cfg s e s')
    (H : ∀ (t : Nat) (pc : Pc) (g : Nat), s.pcs[t]? = some pc → pc.claimed? = some g → lastClaim t tr = some g) :
    ∀ (t : Nat) (pc : Pc) (g : Nat), s'.pcs[t]? = some pc → pc.claimed? = some g → lastClaim t (tr ++ [e]) = some g := by
  -- the counter of one thread is replaced; a claim only concerns that thread
  have key : ∀ {t : Nat} {pc pc' : Pc} {e : Ev}, s.pcs[t]? = some pc →
      (∀ g, pc'.claimed? = some g → (pc.claimed? = some g ∧ (∀ u i, e ≠ .claim u i)) ∨ e = .claim t g) →
      (∀ u i, e = .claim u i → u = t) →
      ∀ u q g, (s.pcs.set t pc')[u]? = some q → q.claimed? = some g → lastClaim u (tr ++ [e]) = some g := by
    intro t pc pc' e h h1 h2 u q g hu hq
    rw [lastClaim_snoc]
    by_cases hut : u = t
    · subst hut
      rw [List.getElem?_set_self (List.getElem?_eq_some_iff.mp h).1] at hu
      cases hu
      rcases h1 g hq with ⟨a, b⟩ | rfl
      · cases e with
        | claim u' i' => exact absurd rfl (b u' i')
        | _ => exact H u pc g h a
      · simp
    · rw [List.getElem?_set_ne (fun x => hut x.symm)] at hu
      cases e with
      | claim u' i' =>
        have := h2 u' i' rfl
        subst this
        simp only
        rw [if_neg (fun x => hut x.symm)]
        exact H u q g hu hq
      | _ => exact H u q g hu hq
  cases hs with
  | callNext h => exact key h (by simp [Pc.claimed?]) (by simp)
  | callAvail h => exact key h (by simp [Pc.claimed?]) (by simp)
  | callIndex h => exact key h (by simp [Pc.claimed?]) (by simp)
  | lockNext h _ => exact key h (by simp [Pc.claimed?]) (by simp)
  | lockAvail h _ => exact key h (by simp [Pc.claimed?]) (by simp)
  | lockIndex h _ => exact key h (by simp [Pc.claimed?]) (by simp)
  | miss h _ => exact key h (by simp [Pc.claimed?]) (by simp +contextual)
  | hit h _ => exact key h (by simp [Pc.claimed?]) (by simp +contextual)
  | fillPush h _ => exact key h (by simp [Pc.claimed?]) (by simp)
  | fillFail h _ => exact key h (by simp [Pc.claimed?]) (by simp)
  | pushFail h _ => exact key h (by simp [Pc.claimed?]) (by simp)
  | dropped h _ => exact key h (by simp [Pc.claimed?]) (by simp)
  | buildFail h => exact key h (by simp [Pc.claimed?]) (by simp)
  | getFail h _ _ _ => exact key h (by simp [Pc.claimed?]) (by simp)
  | fillDone h _ => exact key h (by simp [Pc.claimed?]) (by simp)
  | unlockHit h => exact key h (by simp [Pc.claimed?]) (by simp)
  | unlockMiss h => exact key h (by simp [Pc.claimed?]) (by simp)
  | build h => exact key h (by simp [Pc.claimed?]) (by simp)
  | get h _ _ _ => exact key h (by simp [Pc.claimed?]) (by simp)
  | getBroken h _ => exact key h (by simp [Pc.claimed?]) (by simp)
  | unwound h _ _ => exact key h (by simp [Pc.claimed?]) (by simp)
  | availEmpty h _ => exact key h (by simp [Pc.claimed?]) (by simp)
  | availFront h _ _ => exact key h (by simp [Pc.claimed?]) (by simp)
  | index h => exact key h (by simp [Pc.claimed?]) (by simp)
  | finish hf _ =>
    intro t pc g hu hq
    rw [lastClaim_snoc]
    exact H t pc g hu hq

theorem last_run {cfg : PoolCfg} {n : Nat} {s : Pool} {tr : List Ev} (h : PoolRun cfg (poolNew cfg n) tr s) :
    ∀ (t : Nat) (pc : Pc) (g : Nat), s.pcs[t]? = some pc → pc.claimed? = some g → lastClaim t tr = some g := by
  induction h with
  | refl =>
    intro t pc g h hg
    have : pc = .idle := by
      simp only [poolNew] at h
      exact List.eq_of_mem_replicate (List.mem_of_getElem? h)
    subst this
    cases hg
  | step h hs ih => exact last_other hs ih

/-! ## After a refill the cache is full -/

theorem refilled_run {cfg : PoolCfg} {n : Nat} {s : Pool} {tr : List Ev} (h : PoolRun cfg (poolNew cfg n) tr s) :
    ∀ f g, Pc.unlockHit f g ∈ s.pcs → s.current + cfg.poolSize.toNat < 2 ^ 64 → s.cache.length = cfg.poolSize.toNat := by
  induction h with
  | refl =>
    intro f g h
    simp only [poolNew] at h
    have := List.eq_of_mem_replicate h
    cases this
  | @step s s' tr e h hs ih =>
    have H := pinv_run h
    intro f g hm
    -- the thread that moved is not the one at `unlockHit`, and the cache did not change
    have key : ∀ {t : Nat} {pc' : Pc}, (∀ f g, pc' ≠ .unlockHit f g) → Pc.unlockHit f g ∈ s.pcs.set t pc' →
        s.current + cfg.poolSize.toNat < 2 ^ 64 → s.cache.length = cfg.poolSize.toNat := by
      intro t pc' h1 h2 h3
      rcases mem_set_cases h2 with h2 | h2
      · exact ih f g h2 h3
      · exact absurd h2.symm (h1 f g)
    -- a thread that holds the lock moved, so nobody is at `unlockHit`
    have excl : ∀ {t : Nat} {pc pc' : Pc}, s.pcs[t]? = some pc → pc.holds = true → (∀ f g, pc ≠ .unlockHit f g) →
        (∀ f g, pc' ≠ .unlockHit f g) → Pc.unlockHit f g ∈ s.pcs.set t pc' → False := by
      intro t pc pc' h1 h2 h3 h4 h5
      rcases mem_set_cases h5 with h5 | h5
      · exact h3 f g (H.alone h1 h2 h5 rfl).symm
      · exact h4 f g h5.symm
    cases hs with
    | callNext _ => exact key (by simp) hm
    | callAvail _ => exact key (by simp) hm
    | callIndex _ => exact key (by simp) hm
    | lockNext _ _ => exact key (by simp) hm
    | lockAvail _ _ => exact key (by simp) hm
    | lockIndex _ _ => exact key (by simp) hm
    | miss h' _ => exact (excl h' rfl (by simp) (by simp) hm).elim
    | hit h' _ => exact (excl h' rfl (by simp) (by simp) hm).elim
    | fillPush h' _ => exact (excl h' rfl (by simp) (by simp) hm).elim
    | fillFail _ _ => exact key (by simp) hm
    | pushFail h' _ => exact (excl h' rfl (by simp) (by simp) hm).elim
    | dropped _ _ => exact key (by simp) hm
    | buildFail _ => exact key (by simp) hm
    | getFail _ _ _ _ => exact key (by simp) hm
    | @fillDone _ f' i e g' h' hi =>
      intro h3
      obtain ⟨a1, a2, a3, a4, a5⟩ := H.fillOk f' i e g' (List.mem_of_getElem? h')
      have := H.size
      simp only at h3 ⊢
      omega
    | unlockHit _ => exact key (by simp) hm
    | unlockMiss _ => exact key (by simp) hm
    | build _ => exact key (by simp) hm
    | get _ _ _ _ => exact key (by simp) hm
    | getBroken _ _ => exact key (by simp) hm
    | unwound _ _ _ => exact key (by simp) hm
    | availEmpty _ _ => exact key (by simp) hm
    | availFront _ _ _ => exact key (by simp) hm
    | index _ => exact key (by simp) hm
    | finish _ _ => exact ih f g hm

/-! ## An empty cache stays empty -/

theorem empty_stays {cfg : PoolCfg} {s s' : Pool} {tr : List Ev} (h : PoolRun cfg s tr s') (h0 : s.cache = [])
    (h1 : ∀ f i e g, Pc.fill f i e g ∉ s.pcs) : s'.cache = [] ∧ ∀ f i e g, Pc.fill f i e g ∉ s'.pcs := by
  induction h with
  | refl => exact ⟨h0, h1⟩
  | @step s1 s2 tr e h hs ih =>
    obtain ⟨c, nf⟩ := ih
    have key : ∀ {t : Nat} {pc' : Pc}, (∀ f i e g, pc' ≠ .fill f i e g) → ∀ f i e g, Pc.fill f i e g ∉ s1.pcs.set t pc' := by
      intro t pc' h1 f i e g h2
      rcases mem_set_cases h2 with h2 | h2
      · exact nf f i e g h2
      · exact h1 f i e g h2.symm
    cases hs with
    | callNext _ => exact ⟨c, key (by simp)⟩
    | callAvail _ => exact ⟨c, key (by simp)⟩
    | callIndex _ => exact ⟨c, key (by simp)⟩
    | lockNext _ _ => exact ⟨c, key (by simp)⟩
    | lockAvail _ _ => exact ⟨c, key (by simp)⟩
    | lockIndex _ _ => exact ⟨c, key (by simp)⟩
    | miss _ _ => exact ⟨c, key (by simp)⟩
    | hit _ hc => rw [c] at hc; cases hc
    | fillPush h' _ => exact absurd (List.mem_of_getElem? h') (nf _ _ _ _)
    | fillFail _ _ => exact ⟨c, key (by simp)⟩
    | pushFail _ _ => exact ⟨c, key (by simp)⟩
    | dropped _ _ => exact ⟨c, key (by simp)⟩
    | buildFail _ => exact ⟨c, key (by simp)⟩
    | getFail _ _ _ _ => exact ⟨c, key (by simp)⟩
    | fillDone _ _ => exact ⟨c, key (by simp)⟩
    | unlockHit _ => exact ⟨c, key (by simp)⟩
    | unlockMiss _ => exact ⟨c, key (by simp)⟩
    | build _ => exact ⟨c, key (by simp)⟩
    | get _ _ _ _ => exact ⟨c, key (by simp)⟩
    | getBroken _ _ => exact ⟨c, key (by simp)⟩
    | unwound _ _ _ => exact ⟨c, key (by simp)⟩
    | availEmpty _ _ => exact ⟨c, key (by simp)⟩
    | availFront _ _ _ => exact ⟨c, key (by simp)⟩
    | index _ => exact ⟨c, key (by simp)⟩
    | finish _ _ => exact ⟨c, nf⟩

/-! ## Progress -/

/-- Steps a thread has left in its call, at most. -/
def Pc.work (P : Nat) : Pc → Nat
  | .idle => 0
  | .lockNext => 3 * P + 7
  | .inNext => 3 * P + 6
  | .fill _ i e _ => 3 * (e - i) + 5
  | .drop .. => 2
  | .unlockHit .. => 4
  | .unlockMiss _ => 2
  | .build _ => 1
  | .wait .. => 1
  | .unwind .. => 1
  | .lockAvail => 2
  | .inAvail => 1
  | .lockIndex => 2
  | .inIndex => 1

/-- Steps left in all calls and background tasks, at most. -/
def poolWork (cfg : PoolCfg) (s : Pool) : Nat :=
  (s.pcs.map (Pc.work cfg.poolSize.toNat)).sum + (s.futs.map fun f => if f.ready then 0 else 1).sum

theorem sum_set {α : Type} (w : α → Nat) {a : α} (b : α) : ∀ (l : List α) (t : Nat), l[t]? = some a →
    ((l.set t b).map w).sum + w a = (l.map w).sum + w b
  | [], t, h => by simp at h
  | x :: l, 0, h => by
    simp only [List.getElem?_cons_zero, Option.some.injEq] at h
    subst h
    simp; omega
  | x :: l, t + 1, h => by
    simp only [List.getElem?_cons_succ] at h
    have := sum_set w b l t h
    simp only [List.set_cons_succ, List.map_cons, List.sum_cons]
    omega

theorem work_step {cfg : PoolCfg} {s s' : Pool} {e : Ev} {tr : List Ev} (H : PInv cfg s tr) (hs : PoolStep cfg s e s')
    (hc : ∀ t, e ≠ .call t) : poolWork cfg s' < poolWork cfg s := by
  have hp := cfg.poolSize.toNat_lt
  cases hs with
  | callNext _ => exact absurd rfl (hc _)
  | callAvail _ => exact absurd rfl (hc _)
  | callIndex _ => exact absurd rfl (hc _)
  | lockNext h _ => have := sum_set (Pc.work cfg.poolSize.toNat) .inNext _ _ h; simp only [Pc.work] at this; simp only [poolWork]; omega
  | lockAvail h _ => have := sum_set (Pc.work cfg.poolSize.toNat) .inAvail _ _ h; simp only [Pc.work] at this; simp only [poolWork]; omega
  | lockIndex h _ => have := sum_set (Pc.work cfg.poolSize.toNat) .inIndex _ _ h; simp only [Pc.work] at this; simp only [poolWork]; omega
  | miss h _ => have := sum_set (Pc.work cfg.poolSize.toNat) (.unlockMiss s.current) _ _ h; simp only [Pc.work] at this; simp only [poolWork]; omega
  | @hit t f rest h hcache =>
    have h1 := sum_set (Pc.work cfg.poolSize.toNat) (.fill f (((s.current + 1) % 2 ^ 64 + rest.length) % 2 ^ 64) (((s.current + 1) % 2 ^ 64 + cfg.poolSize.toNat) % 2 ^ 64) s.current) _ _ h
    have h2 := H.size
    rw [hcache, List.length_cons] at h2
    simp only [Pc.work] at h1
    simp only [poolWork]
    omega
  | @fillPush t f i e g h hi =>
    have := sum_set (Pc.work cfg.poolSize.toNat) (.fill f (i + 1) e g) _ _ h
    simp only [Pc.work] at this
    simp only [poolWork, List.map_append, List.sum_append, List.map_cons, List.map_nil, List.sum_cons, List.sum_nil, Bool.false_eq_true, if_false]
    omega
  | @fillFail t f i e g h hi => have := sum_set (Pc.work cfg.poolSize.toNat) (.unwind f g) _ _ h; simp only [Pc.work] at this; simp only [poolWork]; omega
  | @pushFail t f i e g h hi =>
    have := sum_set (Pc.work cfg.poolSize.toNat) (.drop f s.futs.length g) _ _ h
    simp only [Pc.work] at this
    simp only [poolWork, List.map_append, List.sum_append, List.map_cons, List.map_nil, List.sum_cons, List.sum_nil, Bool.false_eq_true, if_false]
    omega
  | @dropped t f n g h hr => have := sum_set (Pc.work cfg.poolSize.toNat) (.unwind f g) _ _ h; simp only [Pc.work] at this; simp only [poolWork]; omega
  | buildFail h => have := sum_set (Pc.work cfg.poolSize.toNat) .idle _ _ h; simp only [Pc.work] at this; simp only [poolWork]; omega
  | @getFail t f g fu h hf hr ht =>
    have h1 := sum_set (Pc.work cfg.poolSize.toNat) .idle _ _ h
    have h2 := sum_set (fun f : Fut => if f.ready then 0 else 1) { fu with taken := true } _ _ hf
    simp only [Pc.work] at h1
    simp only at h2
    simp only [poolWork]; omega
  | @fillDone t f i e g h hi => have := sum_set (Pc.work cfg.poolSize.toNat) (.unlockHit f g) _ _ h; simp only [Pc.work] at this; simp only [poolWork]; omega
  | @unlockHit t f g h => have := sum_set (Pc.work cfg.poolSize.toNat) (.wait f g) _ _ h; simp only [Pc.work] at this; simp only [poolWork]; omega
  | @unlockMiss t i h => have := sum_set (Pc.work cfg.poolSize.toNat) (.build i) _ _ h; simp only [Pc.work] at this; simp only [poolWork]; omega
  | build h => have := sum_set (Pc.work cfg.poolSize.toNat) .idle _ _ h; simp only [Pc.work] at this; simp only [poolWork]; omega
  | @get t f g fu h hf hr ht =>
    have h1 := sum_set (Pc.work cfg.poolSize.toNat) .idle _ _ h
    have h2 := sum_set (fun f : Fut => if f.ready then 0 else 1) { fu with taken := true } _ _ hf
    simp only [Pc.work] at h1
    simp only at h2
    simp only [poolWork]; omega
  | getBroken h _ => have := sum_set (Pc.work cfg.poolSize.toNat) .idle _ _ h; simp only [Pc.work] at this; simp only [poolWork]; omega
  | unwound h _ _ => have := sum_set (Pc.work cfg.poolSize.toNat) .idle _ _ h; simp only [Pc.work] at this; simp only [poolWork]; omega
  | availEmpty h _ => have := sum_set (Pc.work cfg.poolSize.toNat) .idle _ _ h; simp only [Pc.work] at this; simp only [poolWork]; omega
  | availFront h _ _ => have := sum_set (Pc.work cfg.poolSize.toNat) .idle _ _ h; simp only [Pc.work] at this; simp only [poolWork]; omega
  | index h => have := sum_set (Pc.work cfg.poolSize.toNat) .idle _ _ h; simp only [Pc.work] at this; simp only [poolWork]; omega
  | @finish f fu hf hr =>
    have h2 := sum_set (fun f : Fut => if f.ready then 0 else 1) { fu with ready := true } _ _ hf
    simp only [hr, Bool.false_eq_true, if_false, if_true] at h2
    simp only [poolWork]; omega

theorem no_deadlock {cfg : PoolCfg} {s : Pool} {tr : List Ev} (H : PInv cfg s tr) (hq : ¬ quiescent s) :
    ∃ e s', PoolStep cfg s e s' ∧ (∀ t, e ≠ .call t) := by
  -- a thread that waits for a future can go on, or its task can
  have waits : ∀ {f : Nat} {fu : Fut}, s.futs[f]? = some fu → fu.ready = false →
      ∃ e s', PoolStep cfg s e s' ∧ (∀ t, e ≠ .call t) :=
    fun hf hr => ⟨_, _, .finish hf hr, by simp⟩
  have one : ∀ {t : Nat} {pc : Pc}, s.pcs[t]? = some pc → pc ≠ .idle → (s.lock = none ∨ pc.holds = true) →
      ∃ e s', PoolStep cfg s e s' ∧ (∀ t, e ≠ .call t) := by
    intro t pc h hne hl
    cases pc with
    | idle => exact absurd rfl hne
    | lockNext =>
      rcases hl with hl | hl
      · exact ⟨_, _, .lockNext h hl, by simp⟩
      · cases hl
    | lockAvail =>
      rcases hl with hl | hl
      · exact ⟨_, _, .lockAvail h hl, by simp⟩
      · cases hl
    | lockIndex =>
      rcases hl with hl | hl
      · exact ⟨_, _, .lockIndex h hl, by simp⟩
      · cases hl
    | inNext =>
      cases hc : s.cache with
      | nil => exact ⟨_, _, .miss h hc, by simp⟩
      | cons f rest => exact ⟨_, _, .hit h hc, by simp⟩
    | fill f i e g =>
      by_cases hi : i < e
      · exact ⟨_, _, .fillPush h hi, by simp⟩
      · exact ⟨_, _, .fillDone h hi, by simp⟩
    | drop f n g =>
      by_cases hr : ∀ fu, s.futs[n]? = some fu → fu.ready = true
      · exact ⟨_, _, .dropped h hr, by simp⟩
      · simp only [Classical.not_forall] at hr
        obtain ⟨fu, hf, hr⟩ := hr
        exact waits hf (by simpa using hr)
    | unlockHit f g => exact ⟨_, _, .unlockHit h, by simp⟩
    | unlockMiss i => exact ⟨_, _, .unlockMiss h, by simp⟩
    | build i => exact ⟨_, _, .build h, by simp⟩
    | wait f g =>
      obtain ⟨fu, a1, _, a3⟩ := H.heldOk _ (List.mem_of_getElem? h) f g rfl
      cases hr : fu.ready with
      | true => exact ⟨_, _, .get h a1 hr a3, by simp⟩
      | false => exact waits a1 hr
    | unwind f g =>
      obtain ⟨fu, a1, _, a3⟩ := H.heldOk _ (List.mem_of_getElem? h) f g rfl
      cases hr : fu.ready with
      | true => exact ⟨_, _, .unwound h a1 hr, by simp⟩
      | false => exact waits a1 hr
    | inAvail =>
      cases hc : s.cache with
      | nil => exact ⟨_, _, .availEmpty h hc, by simp⟩
      | cons f rest =>
        obtain ⟨fu, a1, _⟩ := H.cacheOk 0 f (by rw [hc]; rfl)
        exact ⟨_, _, .availFront h hc a1, by simp⟩
    | inIndex => exact ⟨_, _, .index h, by simp⟩
  cases hlk : s.lock with
  | some t =>
    have ht := H.lockIn t hlk
    have h : s.pcs[t]? = some s.pcs[t] := List.getElem?_eq_getElem ht
    have hh := (H.lockOk t _ h).mpr hlk
    exact one h (by intro he; rw [he] at hh; cases hh) (Or.inr hh)
  | none =>
    have : ∃ pc ∈ s.pcs, pc ≠ Pc.idle := by
      apply Classical.byContradiction
      intro hno
      apply hq
      intro pc hpc
      apply Classical.byContradiction
      intro hne
      exact hno ⟨pc, hpc, hne⟩
    obtain ⟨pc, hpc, hne⟩ := this
    obtain ⟨t, ht⟩ := List.mem_iff_getElem?.mp hpc
    exact one ht hne (Or.inl hlk)

end Qrl
