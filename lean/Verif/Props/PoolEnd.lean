import Verif.Model.PoolEnd
import Verif.Proof.PoolTrace
import Verif.Props.Pool
/-!
# C66: destroying a pool
-/

namespace Qrl.Props

open Outcome Spec

/-- The call in progress has the future: moved out of the deque, or started and not stored. -/
def has (pc : Pc) (f : Nat) : Prop := pc.fut? = some f ∨ ∃ p g, pc = .drop p f g

/-- Every future whose task is still running is in the deque or held by a call in progress. -/
def Tracked (s : Pool) : Prop :=
  ∀ f fu, s.futs[f]? = some fu → fu.ready = false → f ∈ s.cache ∨ ∃ pc ∈ s.pcs, has pc f

theorem mem_set_other {pcs : List Pc} {t f : Nat} {p : Pc} (h : pcs[t]? = some p) (hp : ¬ has p f) (q : Pc)
    (hex : ∃ pc ∈ pcs, has pc f) : ∃ pc ∈ pcs.set t q, has pc f := by
  obtain ⟨pc, hpc, hf⟩ := hex
  obtain ⟨u, hu⟩ := List.mem_iff_getElem?.mp hpc
  have hne : t ≠ u := by
    rintro rfl
    rw [h] at hu
    cases hu
    exact hp hf
  exact ⟨pc, List.mem_iff_getElem?.mpr ⟨u, by rw [List.getElem?_set_ne hne]; exact hu⟩, hf⟩

theorem mem_set_same {pcs : List Pc} {t f : Nat} {p q : Pc} (h : pcs[t]? = some p) (hpq : has p f → has q f)
    (hex : ∃ pc ∈ pcs, has pc f) : ∃ pc ∈ pcs.set t q, has pc f := by
  by_cases hp : has p f
  · have ht := (List.getElem?_eq_some_iff.mp h).1
    exact ⟨q, List.mem_iff_getElem?.mpr ⟨t, by rw [List.getElem?_set_self ht]⟩, hpq hp⟩
  · exact mem_set_other h hp q hex

theorem tracked_init (cfg : PoolCfg) (n : Nat) : Tracked (poolNew cfg n) := by
  intro f fu hf _
  left
  simp only [poolNew, fillAll_spec] at hf ⊢
  have := (List.getElem?_eq_some_iff.mp hf).1
  simp only [List.nil_append, List.length_map, List.length_range'] at this
  simp only [List.nil_append, List.length_nil, List.mem_range'_1]
  omega

theorem tracked_step {cfg : PoolCfg} {s s' : Pool} {e : Ev} {tr : List Ev} (H : PInv cfg s tr)
    (hs : PoolStep cfg s e s') (h : Tracked s) : Tracked s' := by
  have same : ∀ {t : Nat} {p q : Pc} {c : List Nat} {x : Nat}, s.pcs[t]? = some p →
      (has p x → has q x) → (x ∈ s.cache → x ∈ c ∨ has q x) →
      (x ∈ s.cache ∨ ∃ pc ∈ s.pcs, has pc x) → (x ∈ c ∨ ∃ pc ∈ s.pcs.set t q, has pc x) := by
    intro t p q c x hp hpq hc hx
    have ht := (List.getElem?_eq_some_iff.mp hp).1
    rcases hx with hx | hx
    · rcases hc hx with hx | hx
      · exact Or.inl hx
      · exact Or.inr ⟨q, List.mem_iff_getElem?.mpr ⟨t, by rw [List.getElem?_set_self ht]⟩, hx⟩
    · exact Or.inr (mem_set_same hp hpq hx)
  intro x fx hx hr
  have keep : ∀ {p q : Pc}, p.fut? = q.fut? → (∀ a b c, p ≠ .drop a b c) → has p x → has q x := by
    rintro p q h1 h2 (h | ⟨a, b, h⟩)
    · exact Or.inl (by rw [← h1]; exact h)
    · exact absurd h (h2 _ _ _)
  have none : ∀ {p q : Pc}, p.fut? = none → (∀ a b c, p ≠ .drop a b c) → has p x → has q x := by
    rintro p q h1 h2 (h | ⟨a, b, h⟩)
    · rw [h1] at h; cases h
    · exact absurd h (h2 _ _ _)
  cases hs with
  | callNext hp | callAvail hp | callIndex hp | lockNext hp | lockAvail hp | lockIndex hp | miss hp | unlockMiss hp
  | build hp | buildFail hp | availEmpty hp | availFront hp | index hp =>
    exact same hp (none rfl (by simp)) Or.inl (h x fx hx hr)
  | fillFail hp | fillDone hp | unlockHit hp =>
    exact same hp (keep rfl (by simp)) Or.inl (h x fx hx hr)
  | hit hp hc =>
    refine same hp (none rfl (by simp)) ?_ (h x fx hx hr)
    intro hm
    rw [hc] at hm
    rcases List.mem_cons.mp hm with rfl | hm
    · exact Or.inr (Or.inl rfl)
    · exact Or.inl hm
  | @fillPush t f i e g hp hi =>
    by_cases hlt : x < s.futs.length
    · rw [List.getElem?_append_left hlt] at hx
      exact same hp (keep rfl (by simp)) (fun hm => Or.inl (List.mem_append_left _ hm)) (h x fx hx hr)
    · have := (List.getElem?_eq_some_iff.mp hx).1
      rw [List.length_append, List.length_singleton] at this
      left
      rw [show x = s.futs.length by omega]
      exact List.mem_append_right _ (List.mem_singleton.mpr rfl)
  | @pushFail t f i e g hp hi =>
    by_cases hlt : x < s.futs.length
    · rw [List.getElem?_append_left hlt] at hx
      exact same hp (keep rfl (by simp)) Or.inl (h x fx hx hr)
    · have := (List.getElem?_eq_some_iff.mp hx).1
      rw [List.length_append, List.length_singleton] at this
      right
      rw [show x = s.futs.length by omega]
      have ht := (List.getElem?_eq_some_iff.mp hp).1
      exact ⟨_, List.mem_iff_getElem?.mpr ⟨t, List.getElem?_set_self ht⟩, Or.inr ⟨_, _, rfl⟩⟩
  | @dropped t f n g hp hrd =>
    refine same hp ?_ Or.inl (h x fx hx hr)
    rintro (e | ⟨a, b, e⟩)
    · exact Or.inl e
    · cases e
      rw [hrd fx hx] at hr
      cases hr
  | @get t f g fu hp hf hrd ht | @getFail t f g fu hp hf hrd ht =>
    by_cases hxf : x = f
    · subst hxf
      have hlt := (List.getElem?_eq_some_iff.mp hf).1
      simp only [List.getElem?_set_self hlt, Option.some.injEq] at hx
      subst hx
      rw [hrd] at hr
      cases hr
    · rw [List.getElem?_set_ne (Ne.symm hxf)] at hx
      refine same hp ?_ Or.inl (h x fx hx hr)
      rintro (e | ⟨a, b, e⟩)
      · cases e
        exact absurd rfl hxf
      · cases e
  | @getBroken t f g hp hf =>
    obtain ⟨fu, a1, _, a2⟩ := H.heldOk _ (List.mem_of_getElem? hp) f g rfl
    rw [hf fu a1] at a2
    cases a2
  | @unwound t f g fu hp hf hrd =>
    refine same hp ?_ Or.inl (h x fx hx hr)
    rintro (e | ⟨a, b, e⟩)
    · cases e
      simp only at hx
      rw [hf] at hx
      cases hx
      rw [hrd] at hr
      cases hr
    · cases e
  | @finish f fu hf hrd =>
    by_cases hxf : x = f
    · subst hxf
      have hlt := (List.getElem?_eq_some_iff.mp hf).1
      simp only [List.getElem?_set_self hlt, Option.some.injEq] at hx
      subst hx
      cases hr
    · rw [List.getElem?_set_ne (Ne.symm hxf)] at hx
      exact h x fx hx hr

theorem tracked_run {cfg : PoolCfg} {n : Nat} {tr : List Ev} {s : Pool} (h : PoolRun cfg (poolNew cfg n) tr s) :
    Tracked s := by
  induction h with
  | refl => exact tracked_init cfg n
  | step h1 hs ih => exact tracked_step (pinv_run h1) hs ih

/-- The invariant of the end: the destructor has reached a suffix of the member list; while the deque exists, running
tasks are those of futures in it; after that there are none. -/
structure EInv (d : Dying) : Prop where
  order : ∃ done, done ++ d.left = members.reverse
  known : ∀ f ∈ d.cache, ∃ fu, d.futs[f]? = some fu
  knownTemp : ∀ f, d.temp = some f → ∃ fu, d.futs[f]? = some fu
  busy : ∀ f fu, d.futs[f]? = some fu → fu.ready = false → f ∈ d.cache ∨ d.temp = some f
  first : d.temp ≠ none → d.left = members.reverse
  empty : Member.cache ∉ d.left → d.cache = []

theorem order_cases {l : List Member} (h : ∃ done, done ++ l = members.reverse) :
    l = [.mutex, .cache, .poolSize, .currentIndex, .height, .baseSeed] ∨
    l = [.cache, .poolSize, .currentIndex, .height, .baseSeed] ∨ l = [.poolSize, .currentIndex, .height, .baseSeed] ∨
    l = [.currentIndex, .height, .baseSeed] ∨ l = [.height, .baseSeed] ∨ l = [.baseSeed] ∨ l = [] := by
  obtain ⟨done, h⟩ := h
  have hm : members.reverse = [.mutex, .cache, .poolSize, .currentIndex, .height, .baseSeed] := rfl
  rw [hm] at h
  match done, h with
  | [], h => simp at h; simp [h]
  | [a], h => simp at h; simp [h]
  | [a, b], h => simp at h; simp [h]
  | [a, b, c], h => simp at h; simp [h]
  | [a, b, c, e], h => simp at h; simp [h]
  | [a, b, c, e, f], h => simp at h; simp [h]
  | [a, b, c, e, f, g], h => simp at h; simp [h]
  | a :: b :: c :: e :: f :: g :: i :: _, h => simp at h

theorem einv_step {d d' : Dying} {e : EndEv} (H : EInv d) (hs : EndStep d e d') :
    EInv d' ∧ e ≠ .ran false := by
  cases hs with
  | @joinTemp f fu ht hf hr =>
    refine ⟨⟨H.order, H.known, ?_, ?_, ?_, H.empty⟩, by simp⟩
    · intro x hx; cases hx
    · intro x fx hx hrx
      rcases H.busy x fx hx hrx with h | h
      · exact Or.inl h
      · rw [ht] at h
        cases h
        simp only at hx
        rw [hf] at hx
        cases hx
        rw [hr] at hrx
        cases hrx
    · intro h; exact absurd rfl h
  | @join ms f rest fu hl hc hf hr ht =>
    refine ⟨⟨H.order, ?_, H.knownTemp, ?_, H.first, ?_⟩, by simp⟩
    · intro x hx; exact H.known x (by rw [hc]; exact List.mem_cons_of_mem _ hx)
    · intro x fx hx hrx
      rcases H.busy x fx hx hrx with this | this
      swap
      · exact Or.inr this
      rw [hc] at this
      rcases List.mem_cons.mp this with rfl | hm
      · simp only at hx
        rw [hf] at hx
        cases hx
        rw [hr] at hrx
        cases hrx
      · exact Or.inl hm
    · intro hn
      simp only at hn
      rw [hl] at hn
      simp at hn
  | @freeCache ms hl hc ht =>
    refine ⟨⟨?_, H.known, H.knownTemp, H.busy, fun h => absurd ht h, fun _ => hc⟩, by simp⟩
    obtain ⟨done, ho⟩ := H.order
    exact ⟨done ++ [.cache], by rw [← ho, hl]; simp⟩
  | @free m ms hl hm ht =>
    refine ⟨⟨?_, H.known, H.knownTemp, H.busy, fun h => absurd ht h, ?_⟩, by simp⟩
    · obtain ⟨done, ho⟩ := H.order
      exact ⟨done ++ [m], by rw [← ho, hl]; simp⟩
    · intro hn
      apply H.empty
      rw [hl]
      intro hx
      rcases List.mem_cons.mp hx with hx | hx
      · exact hm hx.symm
      · exact hn hx
  | @finish f fu hf hr =>
    have hk : ∀ (x : Nat) (fx : Fut), d.futs[x]? = some fx → ∃ fy, (d.futs.set f { fu with ready := true })[x]? = some fy := by
      intro x fx h1
      have := (List.getElem?_eq_some_iff.mp h1).1
      exact ⟨_, List.getElem?_eq_getElem (by simpa using this)⟩
    refine ⟨⟨H.order, ?_, ?_, ?_, H.first, H.empty⟩, ?_⟩
    · intro x hx
      obtain ⟨fx, h1⟩ := H.known x hx
      exact hk x fx h1
    · intro x hx
      obtain ⟨fx, h1⟩ := H.knownTemp x hx
      exact hk x fx h1
    · intro x fx hx hrx
      by_cases hxf : x = f
      · subst hxf
        have hlt := (List.getElem?_eq_some_iff.mp hf).1
        simp only [List.getElem?_set_self hlt, Option.some.injEq] at hx
        subst hx
        cases hrx
      · simp only at hx
        rw [List.getElem?_set_ne (Ne.symm hxf)] at hx
        exact H.busy x fx hx hrx
    · have : Member.cache ∈ d.left := by
        rcases H.busy f fu hf hr with hb | hb
        · exact Decidable.byContradiction fun hn => by rw [H.empty hn] at hb; cases hb
        · rw [H.first (by rw [hb]; simp)]; decide
      rcases order_cases H.order with h | h | h | h | h | h | h <;> rw [h] at this ⊢ <;> simp at this ⊢

theorem einv_run {d d' : Dying} {tr : List EndEv} (H : EInv d) (h : EndRun d tr d') :
    EInv d' ∧ EndEv.ran false ∉ tr := by
  induction h with
  | refl => exact ⟨H, by simp⟩
  | step h1 hs ih =>
    obtain ⟨a, b⟩ := ih
    obtain ⟨a', b'⟩ := einv_step a hs
    refine ⟨a', ?_⟩
    rw [List.mem_append, List.mem_singleton]
    rintro (hx | hx)
    · exact b hx
    · exact b' hx.symm

theorem einv_destroy {cfg : PoolCfg} {n : Nat} {tr : List Ev} {s : Pool} (h : PoolRun cfg (poolNew cfg n) tr s)
    (hq : quiescent s) : EInv s.destroy := by
  refine ⟨⟨[], rfl⟩, ?_, fun f hf => (by cases hf), ?_, fun _ => rfl,
    fun hn => absurd (show Member.cache ∈ members.reverse by decide) hn⟩
  · intro f hf
    obtain ⟨j, hj⟩ := List.mem_iff_getElem?.mp hf
    obtain ⟨fu, a, _⟩ := (pinv_run h).cacheOk j f hj
    exact ⟨fu, a⟩
  · intro f fu hf hr
    rcases tracked_run h f fu hf hr with hc | ⟨pc, hpc, he⟩
    · exact Or.inl hc
    · rw [hq pc hpc] at he
      rcases he with he | ⟨_, _, he⟩ <;> cases he

theorem einv_fails (cfg : PoolCfg) (k : Nat) : EInv (poolNewFails cfg k) := by
  simp only [poolNewFails, fillAll_spec, List.nil_append, List.length_nil]
  refine ⟨⟨[], rfl⟩, ?_, fun f hf => (by cases hf), ?_, fun _ => rfl,
    fun hn => absurd (show Member.cache ∈ members.reverse by decide) hn⟩
  · intro f hf
    simp only [List.mem_range'_1] at hf
    exact ⟨_, List.getElem?_eq_getElem (by simpa using hf.2)⟩
  · intro f fu hf hr
    have := (List.getElem?_eq_some_iff.mp hf).1
    simp only [List.length_map, List.length_range'] at this
    simp only [List.mem_range'_1]
    left
    omega

theorem einv_drops (cfg : PoolCfg) (k : Nat) : EInv (poolNewDrops cfg k) := by
  simp only [poolNewDrops, fillAll_spec, List.nil_append, List.length_nil]
  refine ⟨⟨[], rfl⟩, ?_, ?_, ?_, fun _ => rfl, fun hn => absurd (show Member.cache ∈ members.reverse by decide) hn⟩
  · intro f hf
    simp only [List.mem_range'_1] at hf
    exact ⟨_, List.getElem?_eq_getElem (by simp; omega)⟩
  · intro f hf
    simp only [Option.some.injEq] at hf
    subst hf
    exact ⟨_, List.getElem?_concat_length⟩
  · intro f fu hf hr
    have := (List.getElem?_eq_some_iff.mp hf).1
    simp only [List.length_append, List.length_map, List.length_range', List.length_singleton] at this
    simp only [List.mem_range'_1, Option.some.injEq, List.length_map, List.length_range']
    omega

theorem einv_over {d : Dying} (H : EInv d) (hl : d.left = []) : ∀ fu ∈ d.futs, fu.ready = true := by
  intro fu hfu
  obtain ⟨f, hf⟩ := List.mem_iff_getElem?.mp hfu
  cases hr : fu.ready with
  | true => rfl
  | false =>
    have ht : d.temp = none := Decidable.byContradiction fun h => by
      have := H.first h
      rw [hl] at this
      cases this
    rcases H.busy f fu hf hr with this | this
    · rw [H.empty (by rw [hl]; simp)] at this
      cases this
    · rw [ht] at this
      cases this

/-- C66. A pool destroyed while no call is in progress: in every schedule, a background task that finishes during the
destruction still finds the members it reads, and once the destructor is over no task is running. -/
theorem C66_destroy_safe (cfg : PoolCfg) (n : Nat) (tr : List Ev) (s : Pool) (h : PoolRun cfg (poolNew cfg n) tr s)
    (hq : quiescent s) (tr' : List EndEv) (d : Dying) (h' : EndRun s.destroy tr' d) :
    EndEv.ran false ∉ tr' ∧ (d.left = [] → ∀ fu ∈ d.futs, fu.ready = true) := by
  obtain ⟨H, h1⟩ := einv_run (einv_destroy h hq) h'
  exact ⟨h1, einv_over H⟩

/-- C66. The same for a constructor that fails because a thread could not be started, after any number of tasks, or because there
was no memory to store the future of a task that was. -/
theorem C66_failed_constructor_safe (cfg : PoolCfg) (k : Nat) (d0 d : Dying) (tr : List EndEv)
    (h0 : d0 = poolNewFails cfg k ∨ d0 = poolNewDrops cfg k) (h : EndRun d0 tr d) :
    EndEv.ran false ∉ tr ∧ (d.left = [] → ∀ fu ∈ d.futs, fu.ready = true) := by
  have H0 : EInv d0 := by
    rcases h0 with rfl | rfl
    · exact einv_fails cfg k
    · exact einv_drops cfg k
  obtain ⟨H, h1⟩ := einv_run H0 h
  exact ⟨h1, einv_over H⟩

/-- Steps that are still possible. -/
def endWork (d : Dying) : Nat :=
  (if d.temp = none then 0 else 1) + d.left.length + d.cache.length + d.futs.countP fun fu => !fu.ready

theorem countP_set {l : List Fut} : ∀ {f : Nat} {fu : Fut}, l[f]? = some fu → fu.ready = false →
    (l.set f { fu with ready := true }).countP (fun fu => !fu.ready) + 1 = l.countP fun fu => !fu.ready := by
  induction l with
  | nil => intro f fu h; simp at h
  | cons a l ih =>
    intro f fu h hr
    cases f with
    | zero =>
      simp only [List.getElem?_cons_zero, Option.some.injEq] at h
      subst h
      simp [hr]
    | succ f =>
      have := ih (by simpa using h) hr
      simp only [List.set_cons_succ, List.countP_cons]
      omega

theorem endWork_step {d d' : Dying} {e : EndEv} (hs : EndStep d e d') : endWork d' + 1 = endWork d := by
  cases hs with
  | joinTemp ht hf hr => simp [endWork, ht]; omega
  | join hl hc hf hr ht => simp only [endWork, hc, List.length_cons, ht]; omega
  | freeCache hl hc ht => simp only [endWork, hl, List.length_cons, ht]; omega
  | free hl hm ht => simp only [endWork, hl, List.length_cons, ht]; omega
  | finish hf hr => have := countP_set hf hr; simp only [endWork]; omega

theorem end_progress {d : Dying} (H : EInv d) (hne : d.left ≠ []) : ∃ e d', EndStep d e d' := by
  match ht : d.temp with
  | some f =>
    obtain ⟨fu, hf⟩ := H.knownTemp f ht
    cases hr : fu.ready with
    | true => exact ⟨_, _, .joinTemp ht hf hr⟩
    | false => exact ⟨_, _, .finish hf hr⟩
  | none =>
    match hl : d.left with
    | [] => exact absurd hl hne
    | m :: ms =>
      by_cases hm : m = .cache
      · subst hm
        match hc : d.cache with
        | [] => exact ⟨_, _, .freeCache hl hc ht⟩
        | f :: rest =>
          obtain ⟨fu, hf⟩ := H.known f (by rw [hc]; exact List.mem_cons_self)
          cases hr : fu.ready with
          | true => exact ⟨_, _, .join hl hc hf hr ht⟩
          | false => exact ⟨_, _, .finish hf hr⟩
      · exact ⟨_, _, .free hl hm ht⟩

theorem endRun_length {d0 d : Dying} {tr : List EndEv} (h : EndRun d0 tr d) : tr.length ≤ endWork d0 := by
  have : tr.length + endWork d = endWork d0 := by
    induction h with
    | refl => simp
    | step h1 hs ih =>
      have := endWork_step hs
      rw [List.length_append, List.length_singleton]
      omega
  omega

/-- C66. Destruction comes to an end: no schedule gets stuck before every member is destroyed, and every schedule has a
bounded number of steps. -/
theorem C66_destroy_ends (cfg : PoolCfg) (n : Nat) (tr : List Ev) (s : Pool) (h : PoolRun cfg (poolNew cfg n) tr s)
    (hq : quiescent s) : ∃ bound, ∀ tr' d, EndRun s.destroy tr' d →
      tr'.length ≤ bound ∧ (d.left ≠ [] → ∃ e d', EndStep d e d') :=
  ⟨endWork s.destroy, fun _ _ h' => ⟨endRun_length h', end_progress (einv_run (einv_destroy h hq) h').1⟩⟩

/-- C66. So does a constructor that fails. -/
theorem C66_failed_constructor_ends (cfg : PoolCfg) (k : Nat) (d0 : Dying)
    (h0 : d0 = poolNewFails cfg k ∨ d0 = poolNewDrops cfg k) : ∃ bound, ∀ tr d, EndRun d0 tr d →
      tr.length ≤ bound ∧ (d.left ≠ [] → ∃ e d', EndStep d e d') := by
  have H0 : EInv d0 := by
    rcases h0 with rfl | rfl
    · exact einv_fails cfg k
    · exact einv_drops cfg k
  exact ⟨endWork d0, fun _ _ h' => ⟨endRun_length h', end_progress (einv_run H0 h').1⟩⟩

/-- A concrete case: the pool of `demo_run`, in which two trees were claimed and a third task is still running when the
destructor starts; it waits for that task. -/
example : ∃ tr s, PoolRun demoCfg (poolNew demoCfg 1) tr s ∧ quiescent s ∧ (∃ fu ∈ s.futs, fu.ready = false) ∧
    ∃ d, EndRun s.destroy [.tau, .ran true, .tau, .tau, .tau, .tau, .tau, .tau] d ∧ d.left = [] := by
  have r0 : PoolRun demoCfg (poolNew demoCfg 1) [] ⟨0, [0], [⟨0, false, false⟩], none, [.idle]⟩ := .refl _
  have r1 := r0.step (.callNext (t := 0) rfl)
  have r2 := r1.step (.lockNext (t := 0) rfl rfl)
  have r3 := r2.step (.hit (t := 0) rfl rfl)
  have r4 := r3.step (.fillPush (t := 0) (i := 1) (e := 2) rfl (by decide))
  have r5 := r4.step (.fillDone (t := 0) (i := 2) (e := 2) rfl (by decide))
  have r6 := r5.step (.unlockHit (t := 0) rfl)
  have r7 := r6.step (.finish (f := 0) rfl rfl)
  have r8 := r7.step (.get (t := 0) (f := 0) (g := 0) rfl rfl rfl rfl)
  have r9 : PoolRun demoCfg (poolNew demoCfg 1) _ ⟨1, [1], [⟨0, true, true⟩, ⟨1, false, false⟩], none, [.idle]⟩ := r8
  have d0 := EndRun.refl (Pool.destroy ⟨1, [1], [⟨0, true, true⟩, ⟨1, false, false⟩], none, [.idle]⟩)
  have d1 := d0.step (.free (m := .mutex) rfl (by decide) rfl)
  have d2 := d1.step (.finish (f := 1) rfl rfl)
  have d3 := d2.step (.join (f := 1) rfl rfl rfl rfl rfl)
  have d4 := d3.step (.freeCache rfl rfl rfl)
  have d5 := d4.step (.free (m := .poolSize) rfl (by decide) rfl)
  have d6 := d5.step (.free (m := .currentIndex) rfl (by decide) rfl)
  have d7 := d6.step (.free (m := .height) rfl (by decide) rfl)
  have d8 := d7.step (.free (m := .baseSeed) rfl (by decide) rfl)
  exact ⟨_, _, r9, by intro pc hpc; simpa using hpc, ⟨_, List.mem_cons_of_mem _ (List.mem_singleton.mpr rfl), rfl⟩, _,
    d8, rfl⟩

/-- A constructor that stores one future and has no memory for the second: it waits for the second task, then for the first. -/
example : ∃ d, EndRun (poolNewDrops demoCfg 1) [.ran true, .tau, .tau, .ran true, .tau, .tau, .tau, .tau, .tau, .tau] d ∧
    d.left = [] := by
  have d0 := EndRun.refl (poolNewDrops demoCfg 1)
  have d1 := d0.step (.finish (f := 1) rfl rfl)
  have d2 := d1.step (.joinTemp (f := 1) rfl rfl rfl)
  have d3 := d2.step (.free (m := .mutex) rfl (by decide) rfl)
  have d4 := d3.step (.finish (f := 0) rfl rfl)
  have d5 := d4.step (.join (f := 0) rfl rfl rfl rfl rfl)
  have d6 := d5.step (.freeCache rfl rfl rfl)
  have d7 := d6.step (.free (m := .poolSize) rfl (by decide) rfl)
  have d8 := d7.step (.free (m := .currentIndex) rfl (by decide) rfl)
  have d9 := d8.step (.free (m := .height) rfl (by decide) rfl)
  have d10 := d9.step (.free (m := .baseSeed) rfl (by decide) rfl)
  exact ⟨_, d10, rfl⟩

end Qrl.Props
