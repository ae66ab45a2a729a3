import Verif.Spec.Pool
import Mathlib.Data.List.Nodup

namespace Qrl

open Outcome Spec

theorem claims_append (a b : List Ev) : claims (a ++ b) = claims a ++ claims b := by
  induction a with
  | nil => rfl
  | cons e a ih => cases e <;> simp only [List.cons_append, claims, ih]

theorem trees_append (a b : List Ev) : trees (a ++ b) = trees a ++ trees b := by
  induction a with
  | nil => rfl
  | cons e a ih => cases e <;> simp only [List.cons_append, trees, ih]

theorem failures_append (a b : List Ev) : failures (a ++ b) = failures a + failures b := by
  induction a with
  | nil => simp [failures]
  | cons e a ih => cases e <;> simp only [List.cons_append, failures, ih] <;> omega

theorem fillFailures_append (a b : List Ev) : fillFailures (a ++ b) = fillFailures a + fillFailures b := by
  induction a with
  | nil => simp [fillFailures]
  | cons e a ih => cases e <;> simp only [List.cons_append, fillFailures, ih]; omega

theorem fillFailures_le (a : List Ev) : fillFailures a ≤ failures a := by
  induction a with
  | nil => exact Nat.le_refl _
  | cons e a ih => cases e <;> simp only [fillFailures, failures] <;> omega

/-- The thread holds the lock. -/
def Pc.holds : Pc → Bool
  | .inNext | .fill .. | .drop .. | .unlockHit .. | .unlockMiss .. | .inAvail | .inIndex => true
  | _ => false

/-- The future the thread has moved out of the cache. -/
def Pc.fut? : Pc → Option Nat
  | .fill f _ _ _ | .drop f _ _ | .unlockHit f _ | .wait f _ | .unwind f _ => some f
  | _ => none

/-- That future and the claimed index. -/
def Pc.held? : Pc → Option (Nat × Nat)
  | .fill f _ _ g | .drop f _ g | .unlockHit f g | .wait f g | .unwind f g => some (f, g)
  | _ => none

/-- The index the thread has claimed and will return the tree of. -/
def Pc.got? : Pc → Option Nat
  | .fill _ _ _ g | .unlockHit _ g | .wait _ g | .unlockMiss g | .build g => some g
  | _ => none

/-- The index the thread has claimed and will lose. -/
def Pc.lost? : Pc → Option Nat
  | .drop _ _ g | .unwind _ g => some g
  | _ => none

theorem cnt_set {α : Type} [DecidableEq α] (g : Pc → Option α) (x : α) {pc : Pc} (pc' : Pc) :
    ∀ (pcs : List Pc) (t : Nat), pcs[t]? = some pc →
      ((pcs.set t pc').filterMap g).count x + (g pc).toList.count x =
        (pcs.filterMap g).count x + (g pc').toList.count x
  | [], t, h => by simp at h
  | a :: pcs, 0, h => by
    simp only [List.getElem?_cons_zero, Option.some.injEq] at h
    subst h
    rw [List.set_cons_zero]
    simp only [List.filterMap_cons]
    cases g a <;> cases g pc' <;> (simp [List.count_cons]; try omega)
  | a :: pcs, t + 1, h => by
    simp only [List.getElem?_cons_succ] at h
    have := cnt_set g x pc' pcs t h
    rw [List.set_cons_succ]
    simp only [List.filterMap_cons]
    cases g a
    · simpa using this
    · simp only [List.count_cons]; omega

/-- The invariant of the pool; `tr` is the schedule so far. -/
structure PInv (cfg : PoolCfg) (s : Pool) (tr : List Ev) : Prop where
  lockOk : ∀ t pc, s.pcs[t]? = some pc → (pc.holds = true ↔ s.lock = some t)
  lockIn : ∀ t, s.lock = some t → t < s.pcs.length
  nodup : ∀ x, s.cache.count x + (s.pcs.filterMap Pc.fut?).count x ≤ 1
  cacheOk : ∀ j f, s.cache[j]? = some f →
    ∃ fu, s.futs[f]? = some fu ∧ fu.idx = (s.current + j) % 2 ^ 64 ∧ fu.taken = false
  heldOk : ∀ pc ∈ s.pcs, ∀ f g, pc.held? = some (f, g) →
    ∃ fu, s.futs[f]? = some fu ∧ fu.idx = g ∧ fu.taken = false
  fillOk : ∀ f i e g, Pc.fill f i e g ∈ s.pcs → i < 2 ^ 64 ∧ e < 2 ^ 64 ∧ i = (s.current + s.cache.length) % 2 ^ 64 ∧
    s.cache.length + (e - i) ≤ cfg.poolSize.toNat ∧ e = (s.current + cfg.poolSize.toNat) % 2 ^ 64
  size : s.cache.length ≤ cfg.poolSize.toNat
  cur : s.current = (cfg.start.toNat + (claims tr).length) % 2 ^ 64
  order : claims tr = (List.range (claims tr).length).map fun k => (cfg.start.toNat + k) % 2 ^ 64
  acct : ∃ is lost : List Nat, trees tr = is.map (prepareTree cfg) ∧ lost.length = failures tr ∧
    ∀ x, is.count x + lost.count x + (s.pcs.filterMap Pc.got?).count x + (s.pcs.filterMap Pc.lost?).count x =
      (claims tr).count x
  full : fillFailures tr = 0 → (∀ pc ∈ s.pcs, pc.lost? = none) →
    cfg.start.toNat + (claims tr).length + cfg.poolSize.toNat < 2 ^ 64 →
    s.cache.length = cfg.poolSize.toNat ∨
      ∃ f i e g, Pc.fill f i e g ∈ s.pcs ∧ s.cache.length + (e - i) = cfg.poolSize.toNat
  unbroken : Ev.broken ∉ tr

theorem fillAll_spec (m : Nat) : ∀ (i : Nat) (cache : List Nat) (futs : List Fut),
    fillAll m i cache futs = (cache ++ List.range' futs.length m,
      futs ++ (List.range' i m).map fun k => { idx := k, ready := false, taken := false }) := by
  induction m with
  | zero => intro i cache futs; simp [fillAll]
  | succ m ih =>
    intro i cache futs
    rw [fillAll, ih]
    simp [List.range'_succ]

theorem pinv_init (cfg : PoolCfg) (n : Nat) : PInv cfg (poolNew cfg n) [] := by
  have hs := cfg.start.toNat_lt
  have hp := cfg.poolSize.toNat_lt
  have hm : (cfg.start.toNat + cfg.poolSize.toNat) % 2 ^ 64 - cfg.start.toNat ≤ cfg.poolSize.toNat := by omega
  have hfm : ∀ {α : Type} (g : Pc → Option α), g .idle = none → (List.replicate n Pc.idle).filterMap g = [] := by
    intro α g hg
    rw [List.filterMap_eq_nil_iff]
    intro a ha
    rw [List.eq_of_mem_replicate ha]; exact hg
  generalize hM : (cfg.start.toNat + cfg.poolSize.toNat) % 2 ^ 64 - cfg.start.toNat = M at hm
  have e : poolNew cfg n = { current := cfg.start.toNat, cache := List.range' 0 M, futs := (List.range' cfg.start.toNat M).map fun k => { idx := k, ready := false, taken := false }, lock := none, pcs := List.replicate n .idle } := by
    simp only [poolNew, hM, fillAll_spec]
    simp
  rw [e]
  refine { lockOk := ?_, lockIn := ?_, nodup := ?_, cacheOk := ?_, heldOk := ?_, fillOk := ?_, size := ?_, cur := ?_, order := ?_, acct := ?_, full := ?_, unbroken := ?_ }
  · intro t pc h
    have := List.eq_of_mem_replicate (List.mem_of_getElem? h)
    subst this
    simp [Pc.holds]
  · intro t h; cases h
  · intro x
    simp only
    rw [hfm _ rfl, List.count_nil, Nat.add_zero]
    exact List.nodup_iff_count_le_one.mp List.nodup_range' x
  · intro j f h
    have hj : j < M := by
      have := (List.getElem?_eq_some_iff.mp h).1
      simpa using this
    have hf : f = j := by
      rw [List.getElem?_range' hj] at h
      simp only [Option.some.injEq] at h; omega
    subst hf
    refine ⟨{ idx := cfg.start.toNat + f, ready := false, taken := false }, ?_, ?_, rfl⟩
    · simp [List.getElem?_map, List.getElem?_range' hj]
    · simp only; omega
  · intro pc h f g hh
    have := List.eq_of_mem_replicate h
    subst this
    cases hh
  · intro f i e g h
    have := List.eq_of_mem_replicate h
    cases this
  · simpa using hm
  · simp only [claims, List.length_nil]; omega
  · rfl
  · exact ⟨[], [], rfl, rfl, by intro x; simp only; rw [hfm _ rfl, hfm _ rfl]; rfl⟩
  · intro _ _ h
    left
    simp only [claims, List.length_nil] at h
    simp only [List.length_range']
    omega
  · simp

theorem mem_set_cases {pcs : List Pc} {t : Nat} {pc' q : Pc} (h : q ∈ pcs.set t pc') : q ∈ pcs ∨ q = pc' :=
  List.mem_or_eq_of_mem_set h

theorem mem_set_self' {pcs : List Pc} {t : Nat} {pc pc' : Pc} (h : pcs[t]? = some pc) : pc' ∈ pcs.set t pc' := by
  have hl := (List.getElem?_eq_some_iff.mp h).1
  exact List.mem_iff_getElem?.mpr ⟨t, by rw [List.getElem?_set_self hl]⟩

theorem mem_set_other {pcs : List Pc} {t : Nat} {pc pc' q : Pc} (h : pcs[t]? = some pc) (hq : q ∈ pcs) (hne : q ≠ pc) :
    q ∈ pcs.set t pc' := by
  obtain ⟨u, hu⟩ := List.mem_iff_getElem?.mp hq
  have : t ≠ u := by rintro rfl; rw [h] at hu; cases hu; exact hne rfl
  exact List.mem_iff_getElem?.mpr ⟨u, by rw [List.getElem?_set_ne this]; exact hu⟩

/-- Only the lock holder is inside the critical section. -/
theorem PInv.alone {cfg : PoolCfg} {s : Pool} {tr : List Ev} (H : PInv cfg s tr) {t : Nat} {pc : Pc}
    (h : s.pcs[t]? = some pc) (hh : pc.holds = true) {q : Pc} (hq : q ∈ s.pcs) (hqh : q.holds = true) : q = pc := by
  obtain ⟨u, hu⟩ := List.mem_iff_getElem?.mp hq
  have h1 := (H.lockOk t pc h).mp hh
  have h2 := (H.lockOk u q hu).mp hqh
  rw [h1] at h2
  cases h2
  rw [h] at hu
  cases hu
  rfl

theorem lockOk_set {pcs : List Pc} {lock lock' : Option Nat} {t : Nat} {pc pc' : Pc} (h : pcs[t]? = some pc)
    (H : ∀ t pc, pcs[t]? = some pc → (pc.holds = true ↔ lock = some t))
    (hme : pc'.holds = true ↔ lock' = some t) (hoth : ∀ u, u ≠ t → (lock' = some u ↔ lock = some u)) :
    ∀ u q, (pcs.set t pc')[u]? = some q → (q.holds = true ↔ lock' = some u) := by
  intro u q hu
  by_cases e : u = t
  · subst e
    rw [List.getElem?_set_self ((List.getElem?_eq_some_iff.mp h).1)] at hu
    cases hu
    exact hme
  · rw [List.getElem?_set_ne (fun x => e x.symm)] at hu
    rw [H u q hu, hoth u e]

/-- A step that claims nothing and leaves the cache as it is. -/
theorem PInv.quiet {cfg : PoolCfg} {s : Pool} {tr : List Ev} (H : PInv cfg s tr) {t : Nat} {pc pc' : Pc}
    {lock' : Option Nat} {futs' : List Fut} {e : Ev} (h : s.pcs[t]? = some pc)
    (hme : pc'.holds = true ↔ lock' = some t)
    (hoth : ∀ u, u ≠ t → (lock' = some u ↔ s.lock = some u))
    (hfut : pc'.fut? = pc.fut? ∨ pc'.fut? = none) (hheld : pc'.held? = pc.held? ∨ pc'.held? = none)
    (hfuts : ∀ f fu, s.cache.count f + ((s.pcs.set t pc').filterMap Pc.fut?).count f ≠ 0 → s.futs[f]? = some fu →
      ∃ fu', futs'[f]? = some fu' ∧ fu'.idx = fu.idx ∧ fu'.taken = fu.taken)
    (hnf : ∀ f i e g, pc' ≠ .fill f i e g)
    (hfull : (∀ f i e g, pc = .fill f i e g → e - i = 0 ∨ pc'.lost? ≠ none))
    (hfail : fillFailures (tr ++ [e]) = 0 → fillFailures tr = 0)
    (hlost : fillFailures (tr ++ [e]) = 0 → pc'.lost? = none → pc.lost? = none)
    (hacct : ∃ is lost : List Nat, trees (tr ++ [e]) = is.map (prepareTree cfg) ∧ lost.length = failures (tr ++ [e]) ∧
      ∀ x, is.count x + lost.count x + ((s.pcs.set t pc').filterMap Pc.got?).count x +
        ((s.pcs.set t pc').filterMap Pc.lost?).count x = (claims tr).count x)
    (hev : claims [e] = []) (hb : e ≠ .broken) :
    PInv cfg { s with lock := lock', futs := futs', pcs := s.pcs.set t pc' } (tr ++ [e]) := by
  have hlen := (List.getElem?_eq_some_iff.mp h).1
  have hcl : claims (tr ++ [e]) = claims tr := by rw [claims_append, hev, List.append_nil]
  refine { lockOk := lockOk_set h H.lockOk hme hoth, lockIn := ?_, nodup := ?_, cacheOk := ?_, heldOk := ?_, fillOk := ?_, size := H.size, cur := ?_, order := ?_, acct := ?_, full := ?_, unbroken := ?_ }
  · intro u hu
    simp only [List.length_set]
    by_cases e : u = t
    · subst e; exact hlen
    · exact H.lockIn u ((hoth u e).mp hu)
  · intro x
    have h1 := H.nodup x
    have h2 := cnt_set Pc.fut? x pc' s.pcs t h
    rcases hfut with hf | hf
    · rw [hf] at h2; simp only; omega
    · rw [hf] at h2; simp only [Option.toList_none, List.count_nil] at h2; simp only; omega
  · intro j f hj
    obtain ⟨fu, h1, h2, h3⟩ := H.cacheOk j f hj
    have : 0 < s.cache.count f := List.count_pos_iff.mpr (List.mem_of_getElem? hj)
    obtain ⟨fu', a1, a2, a3⟩ := hfuts f fu (by omega) h1
    exact ⟨fu', a1, by rw [a2]; exact h2, by rw [a3]; exact h3⟩
  · intro q hq f g hh
    have hqf : q.fut? = some f := by
      cases q <;> simp only [Pc.held?, Option.some.injEq, Prod.mk.injEq, reduceCtorEq] at hh <;> simp only [Pc.fut?, hh.1]
    have hcnt : 0 < ((s.pcs.set t pc').filterMap Pc.fut?).count f :=
      List.count_pos_iff.mpr (List.mem_filterMap.mpr ⟨q, hq, hqf⟩)
    have hold : ∃ fu, s.futs[f]? = some fu ∧ fu.idx = g ∧ fu.taken = false := by
      rcases mem_set_cases hq with hq | rfl
      · exact H.heldOk q hq f g hh
      · rcases hheld with hx | hx
        · exact H.heldOk pc (List.mem_of_getElem? h) f g (by rw [← hx]; exact hh)
        · rw [hx] at hh; cases hh
    obtain ⟨fu, h1, h2, h3⟩ := hold
    obtain ⟨fu', a1, a2, a3⟩ := hfuts f fu (by omega) h1
    exact ⟨fu', a1, by rw [a2]; exact h2, by rw [a3]; exact h3⟩
  · intro f i e g hq
    rcases mem_set_cases hq with hq | hq
    · exact H.fillOk f i e g hq
    · exact absurd hq.symm (hnf f i e g)
  · rw [hcl]; exact H.cur
  · rw [hcl]; exact H.order
  · rw [hcl]; exact hacct
  · rw [hcl]
    intro f1 f2 f3
    have hl' : pc'.lost? = none := f2 pc' (mem_set_self' h)
    have hold : ∀ q ∈ s.pcs, q.lost? = none := by
      intro q hq
      by_cases hqp : q = pc
      · subst hqp; exact hlost f1 hl'
      · exact f2 q (mem_set_other h hq hqp)
    rcases H.full (hfail f1) hold f3 with hx | ⟨f, i, e, g, hx, hy⟩
    · exact Or.inl hx
    · by_cases hqp : Pc.fill f i e g = pc
      · rcases hfull f i e g hqp.symm with h0 | h0
        · left; simp only; omega
        · exact absurd hl' h0
      · exact Or.inr ⟨f, i, e, g, mem_set_other h hx hqp, hy⟩
  · intro hmem
    rcases List.mem_append.mp hmem with hm | hm
    · exact H.unbroken hm
    · simp only [List.mem_singleton] at hm
      exact hb hm.symm

/-- A step that touches neither the cache nor the futures nor the claims: only the thread's counter and the lock. -/
theorem PInv.local {cfg : PoolCfg} {s : Pool} {tr : List Ev} (H : PInv cfg s tr) {t : Nat} {pc pc' : Pc}
    {lock' : Option Nat} {e : Ev} (h : s.pcs[t]? = some pc)
    (hme : pc'.holds = true ↔ lock' = some t)
    (hoth : ∀ u, u ≠ t → (lock' = some u ↔ s.lock = some u))
    (hfut : pc'.fut? = pc.fut? ∨ pc'.fut? = none) (hheld : pc'.held? = pc.held? ∨ pc'.held? = none)
    (hnf : ∀ f i e g, pc' ≠ .fill f i e g)
    (hfull : (∀ f i e g, pc = .fill f i e g → e - i = 0 ∨ pc'.lost? ≠ none))
    (hgot : pc'.got? = pc.got? ∧ pc'.lost? = pc.lost? ∨ pc.lost? = none ∧ pc'.got? = none ∧ pc'.lost? = pc.got?)
    (hev : claims [e] = [] ∧ trees [e] = [] ∧ failures [e] = 0) (hb : e ≠ .broken) :
    PInv cfg { s with lock := lock', pcs := s.pcs.set t pc' } (tr ++ [e]) := by
  have htr : trees (tr ++ [e]) = trees tr := by rw [trees_append, hev.2.1, List.append_nil]
  have hfa : failures (tr ++ [e]) = failures tr := by rw [failures_append, hev.2.2, Nat.add_zero]
  have hff : fillFailures (tr ++ [e]) = fillFailures tr := by
    have := fillFailures_le [e]
    rw [fillFailures_append]; omega
  refine H.quiet (futs' := s.futs) h hme hoth hfut hheld (fun f fu _ hf => ⟨fu, hf, rfl, rfl⟩) hnf hfull
    (by rw [hff]; exact id) ?_ ?_ hev.1 hb
  · intro _ hl
    rcases hgot with ⟨_, g2⟩ | ⟨g1, _⟩
    · rw [← g2]; exact hl
    · exact g1
  · obtain ⟨is, lost, h1, h2, h3⟩ := H.acct
    refine ⟨is, lost, by rw [htr]; exact h1, by rw [hfa]; exact h2, ?_⟩
    intro x
    have a1 := cnt_set Pc.got? x pc' s.pcs t h
    have a2 := cnt_set Pc.lost? x pc' s.pcs t h
    have a3 := h3 x
    rcases hgot with ⟨g1, g2⟩ | ⟨g1, g2, g3⟩
    · rw [g1] at a1; rw [g2] at a2; omega
    · rw [g2] at a1; rw [g3, g1] at a2
      simp only [Option.toList_none, List.count_nil] at a1 a2
      omega

theorem pinv_step {cfg : PoolCfg} {s s' : Pool} {e : Ev} {tr : List Ev} (H : PInv cfg s tr) (hs : PoolStep cfg s e s') :
    PInv cfg s' (tr ++ [e]) := by
  have hp := cfg.poolSize.toNat_lt
  cases hs with
  | @callNext t h =>
    have := (H.lockOk t _ h)
    exact H.local h (by simpa [Pc.holds] using this) (fun _ _ => Iff.rfl) (Or.inr rfl) (Or.inr rfl) (by intros; simp) (by simp) (Or.inl ⟨rfl, rfl⟩) ⟨rfl, rfl, rfl⟩ (by simp)
  | @callAvail t h =>
    have := (H.lockOk t _ h)
    exact H.local h (by simpa [Pc.holds] using this) (fun _ _ => Iff.rfl) (Or.inr rfl) (Or.inr rfl) (by intros; simp) (by simp) (Or.inl ⟨rfl, rfl⟩) ⟨rfl, rfl, rfl⟩ (by simp)
  | @callIndex t h =>
    have := (H.lockOk t _ h)
    exact H.local h (by simpa [Pc.holds] using this) (fun _ _ => Iff.rfl) (Or.inr rfl) (Or.inr rfl) (by intros; simp) (by simp) (Or.inl ⟨rfl, rfl⟩) ⟨rfl, rfl, rfl⟩ (by simp)
  | @lockNext t h hl =>
    exact H.local h (by simp [Pc.holds]) (fun u hu => by rw [hl]; simp; exact fun x => hu x.symm) (Or.inr rfl) (Or.inr rfl) (by intros; simp) (by simp) (Or.inl ⟨rfl, rfl⟩) ⟨rfl, rfl, rfl⟩ (by simp)
  | @lockAvail t h hl =>
    exact H.local h (by simp [Pc.holds]) (fun u hu => by rw [hl]; simp; exact fun x => hu x.symm) (Or.inr rfl) (Or.inr rfl) (by intros; simp) (by simp) (Or.inl ⟨rfl, rfl⟩) ⟨rfl, rfl, rfl⟩ (by simp)
  | @lockIndex t h hl =>
    exact H.local h (by simp [Pc.holds]) (fun u hu => by rw [hl]; simp; exact fun x => hu x.symm) (Or.inr rfl) (Or.inr rfl) (by intros; simp) (by simp) (Or.inl ⟨rfl, rfl⟩) ⟨rfl, rfl, rfl⟩ (by simp)
  | @fillFail t f i e g h hi =>
    have hl := (H.lockOk t _ h).mp rfl
    exact H.local h (by simp [Pc.holds]) (fun u hu => by rw [hl]; simp; exact fun x => hu x.symm) (Or.inl rfl) (Or.inl rfl) (by intros; simp) (by intros; right; simp [Pc.lost?]) (Or.inr ⟨rfl, rfl, rfl⟩) ⟨rfl, rfl, rfl⟩ (by simp)
  | @pushFail t f i e g h hi =>
    have hl := (H.lockOk t _ h).mp rfl
    have htr : trees (tr ++ [.tau]) = trees tr := by rw [trees_append]; simp [trees]
    have hfa : failures (tr ++ [.tau]) = failures tr := by rw [failures_append]; rfl
    have hff : fillFailures (tr ++ [.tau]) = fillFailures tr := by rw [fillFailures_append]; rfl
    refine H.quiet (pc' := .drop f s.futs.length g) (lock' := s.lock) (futs' := s.futs ++ [{ idx := i, ready := false, taken := false }]) h (by simp [Pc.holds, hl]) (fun _ _ => Iff.rfl) (Or.inl rfl) (Or.inl rfl) (fun f' fu _ hf => ⟨fu, by rw [List.getElem?_append_left (List.getElem?_eq_some_iff.mp hf).1]; exact hf, rfl, rfl⟩) (by intros; simp) (by intros; right; simp [Pc.lost?]) (by rw [hff]; exact id) (fun _ hx => by cases hx) ?_ rfl (by simp)
    obtain ⟨is, lost, h1, h2, h3⟩ := H.acct
    refine ⟨is, lost, by rw [htr]; exact h1, by rw [hfa]; exact h2, ?_⟩
    intro x
    have a1 := cnt_set Pc.got? x (.drop f s.futs.length g) s.pcs t h
    have a2 := cnt_set Pc.lost? x (.drop f s.futs.length g) s.pcs t h
    have a3 := h3 x
    simp only [Pc.got?, Pc.lost?, Option.toList_none, Option.toList_some, List.count_nil] at a1 a2
    omega
  | @dropped t f n g h hr =>
    have hl := (H.lockOk t _ h).mp rfl
    exact H.local h (by simp [Pc.holds]) (fun u hu => by rw [hl]; simp; exact fun x => hu x.symm) (Or.inl rfl) (Or.inl rfl) (by intros; simp) (by simp) (Or.inl ⟨rfl, rfl⟩) ⟨rfl, rfl, rfl⟩ (by simp)
  | @fillDone t f i e g h hi =>
    have hl := (H.lockOk t _ h).mp rfl
    exact H.local h (by simp [Pc.holds, hl]) (fun _ _ => Iff.rfl) (Or.inl rfl) (Or.inl rfl) (by intros; simp) (by intro f' i' e' g' hh; cases hh; left; omega) (Or.inl ⟨rfl, rfl⟩) ⟨rfl, rfl, rfl⟩ (by simp)
  | @unlockHit t f g h =>
    have hl := (H.lockOk t _ h).mp rfl
    exact H.local h (by simp [Pc.holds]) (fun u hu => by rw [hl]; simp; exact fun x => hu x.symm) (Or.inl rfl) (Or.inl rfl) (by intros; simp) (by simp) (Or.inl ⟨rfl, rfl⟩) ⟨rfl, rfl, rfl⟩ (by simp)
  | @unlockMiss t i h =>
    have hl := (H.lockOk t _ h).mp rfl
    exact H.local h (by simp [Pc.holds]) (fun u hu => by rw [hl]; simp; exact fun x => hu x.symm) (Or.inl rfl) (Or.inl rfl) (by intros; simp) (by simp) (Or.inl ⟨rfl, rfl⟩) ⟨rfl, rfl, rfl⟩ (by simp)
  | @availEmpty t h hc =>
    have hl := (H.lockOk t _ h).mp rfl
    exact H.local h (by simp [Pc.holds]) (fun u hu => by rw [hl]; simp; exact fun x => hu x.symm) (Or.inl rfl) (Or.inl rfl) (by intros; simp) (by simp) (Or.inl ⟨rfl, rfl⟩) ⟨rfl, rfl, rfl⟩ (by simp)
  | @availFront t f rest fu h hc hf =>
    have hl := (H.lockOk t _ h).mp rfl
    exact H.local h (by simp [Pc.holds]) (fun u hu => by rw [hl]; simp; exact fun x => hu x.symm) (Or.inl rfl) (Or.inl rfl) (by intros; simp) (by simp) (Or.inl ⟨rfl, rfl⟩) ⟨rfl, rfl, rfl⟩ (by simp)
  | @index t h =>
    have hl := (H.lockOk t _ h).mp rfl
    exact H.local h (by simp [Pc.holds]) (fun u hu => by rw [hl]; simp; exact fun x => hu x.symm) (Or.inl rfl) (Or.inl rfl) (by intros; simp) (by simp) (Or.inl ⟨rfl, rfl⟩) ⟨rfl, rfl, rfl⟩ (by simp)
  | @getBroken t f g h hf =>
    obtain ⟨fu, h1, _, h2⟩ := H.heldOk _ (List.mem_of_getElem? h) f g rfl
    rw [hf fu h1] at h2
    cases h2
  | @miss t h hc =>
    have hl := (H.lockOk t _ h).mp rfl
    have hcl : claims (tr ++ [.claim t s.current]) = claims tr ++ [s.current] := by rw [claims_append]; rfl
    have htr : trees (tr ++ [.claim t s.current]) = trees tr := by rw [trees_append]; simp [trees]
    have hfa : failures (tr ++ [.claim t s.current]) = failures tr := by rw [failures_append]; rfl
    have hff : fillFailures (tr ++ [.claim t s.current]) = fillFailures tr := by rw [fillFailures_append]; rfl
    refine { lockOk := lockOk_set h H.lockOk (by simp [Pc.holds, hl]) (fun _ _ => Iff.rfl), lockIn := ?_, nodup := ?_, cacheOk := ?_, heldOk := ?_, fillOk := ?_, size := H.size, cur := ?_, order := ?_, acct := ?_, full := ?_, unbroken := ?_ }
    · intro u hu; simp only [List.length_set]; exact H.lockIn u hu
    · intro x
      have h1 := H.nodup x
      have h2 := cnt_set Pc.fut? x (.unlockMiss s.current) s.pcs t h
      simp only [Pc.fut?, Option.toList_none, List.count_nil] at h2
      simp only; omega
    · intro j f hj; rw [show s.cache = [] from hc] at hj; simp at hj
    · intro q hq f g hh
      rcases mem_set_cases hq with hq | rfl
      · exact H.heldOk q hq f g hh
      · cases hh
    · intro f i e g hq
      rcases mem_set_cases hq with hq | hq
      · have := H.alone h rfl hq rfl
        cases this
      · cases hq
    · rw [hcl, List.length_append]; simp only [H.cur, List.length_singleton]; omega
    · rw [hcl, List.length_append, List.length_singleton, List.range_succ, List.map_append, ← H.order]
      simp only [List.map_cons, List.map_nil, ← H.cur]
    · obtain ⟨is, lost, h1, h2, h3⟩ := H.acct
      refine ⟨is, lost, by rw [htr]; exact h1, by rw [hfa]; exact h2, ?_⟩
      intro x
      have a1 := cnt_set Pc.got? x (.unlockMiss s.current) s.pcs t h
      have a2 := cnt_set Pc.lost? x (.unlockMiss s.current) s.pcs t h
      have a3 := h3 x
      rw [hcl, List.count_append]
      simp only [Pc.got?, Pc.lost?, Option.toList_none, Option.toList_some, List.count_nil] at a1 a2
      simp only; omega
    · rw [hcl, hff, List.length_append, List.length_singleton]
      intro f1 f2 f3
      have hold : ∀ q ∈ s.pcs, q.lost? = none := by
        intro q hq
        by_cases hqp : q = .inNext
        · subst hqp; rfl
        · exact f2 q (mem_set_other h hq hqp)
      rcases H.full f1 hold (by omega) with hx | ⟨f, i, e, g, hx, hy⟩
      · exact Or.inl hx
      · have := H.alone h rfl hx rfl
        cases this
    · intro hmem
      rcases List.mem_append.mp hmem with hm | hm
      · exact H.unbroken hm
      · simp at hm
  | @hit t f rest h hc =>
    have hl := (H.lockOk t _ h).mp rfl
    have hcl : claims (tr ++ [.claim t s.current]) = claims tr ++ [s.current] := by rw [claims_append]; rfl
    have htr : trees (tr ++ [.claim t s.current]) = trees tr := by rw [trees_append]; simp [trees]
    have hfa : failures (tr ++ [.claim t s.current]) = failures tr := by rw [failures_append]; rfl
    have hff : fillFailures (tr ++ [.claim t s.current]) = fillFailures tr := by rw [fillFailures_append]; rfl
    have hsz : rest.length + 1 ≤ cfg.poolSize.toNat := by have := H.size; rw [hc] at this; simpa using this
    have hcur : s.current < 2 ^ 64 := by rw [H.cur]; omega
    obtain ⟨fu, hf1, hf2, hf3⟩ := H.cacheOk 0 f (by rw [hc]; rfl)
    rw [Nat.add_zero, Nat.mod_eq_of_lt hcur] at hf2
    generalize hPC : Pc.fill f (((s.current + 1) % 2 ^ 64 + rest.length) % 2 ^ 64) (((s.current + 1) % 2 ^ 64 + cfg.poolSize.toNat) % 2 ^ 64) s.current = pc'
    have p1 : pc'.holds = true := by subst hPC; rfl
    have p2 : pc'.fut? = some f := by subst hPC; rfl
    have p3 : pc'.held? = some (f, s.current) := by subst hPC; rfl
    have p4 : pc'.got? = some s.current := by subst hPC; rfl
    have p5 : pc'.lost? = none := by subst hPC; rfl
    refine { lockOk := lockOk_set h H.lockOk (by simp [p1, hl]) (fun _ _ => Iff.rfl), lockIn := ?_, nodup := ?_, cacheOk := ?_, heldOk := ?_, fillOk := ?_, size := ?_, cur := ?_, order := ?_, acct := ?_, full := ?_, unbroken := ?_ }
    · intro u hu; simp only [List.length_set]; exact H.lockIn u hu
    · intro x
      have h1 := H.nodup x
      have h2 := cnt_set Pc.fut? x pc' s.pcs t h
      rw [hc, List.count_cons] at h1
      rw [p2] at h2
      simp only [Pc.fut?, Option.toList_none, Option.toList_some, List.count_nil, List.count_cons] at h2
      simp only; omega
    · intro j f' hj
      obtain ⟨fu', a1, a2, a3⟩ := H.cacheOk (j + 1) f' (by rw [hc]; exact hj)
      exact ⟨fu', a1, by rw [a2]; simp only; omega, a3⟩
    · intro q hq f' g hh
      rcases mem_set_cases hq with hq | rfl
      · exact H.heldOk q hq f' g hh
      · rw [p3] at hh
        cases hh
        exact ⟨fu, hf1, hf2, hf3⟩
    · intro f' i e g hq
      rcases mem_set_cases hq with hq | hq
      · have := H.alone h rfl hq rfl
        cases this
      · rw [← hPC] at hq
        cases hq
        simp only
        refine ⟨Nat.mod_lt _ (by omega), Nat.mod_lt _ (by omega), by trivial, ?_, by trivial⟩
        omega
    · simp only; omega
    · rw [hcl, List.length_append]; simp only [H.cur, List.length_singleton]; omega
    · rw [hcl, List.length_append, List.length_singleton, List.range_succ, List.map_append, ← H.order]
      simp only [List.map_cons, List.map_nil, ← H.cur]
    · obtain ⟨is, lost, h1, h2, h3⟩ := H.acct
      refine ⟨is, lost, by rw [htr]; exact h1, by rw [hfa]; exact h2, ?_⟩
      intro x
      have a1 := cnt_set Pc.got? x pc' s.pcs t h
      have a2 := cnt_set Pc.lost? x pc' s.pcs t h
      have a3 := h3 x
      rw [hcl, List.count_append]
      rw [p4] at a1
      rw [p5] at a2
      simp only [Pc.got?, Pc.lost?, Option.toList_none, Option.toList_some, List.count_nil] at a1 a2
      simp only; omega
    · rw [hcl, hff, List.length_append, List.length_singleton]
      intro f1 f2 f3
      have hold : ∀ q ∈ s.pcs, q.lost? = none := by
        intro q hq
        by_cases hqp : q = .inNext
        · subst hqp; rfl
        · exact f2 q (mem_set_other h hq hqp)
      rcases H.full f1 hold (by omega) with hx | ⟨f', i, e, g, hx, hy⟩
      · right
        rw [hc, List.length_cons] at hx
        refine ⟨_, _, _, _, by rw [hPC]; exact mem_set_self' h, ?_⟩
        have := H.cur
        simp only
        omega
      · have := H.alone h rfl hx rfl
        cases this
    · intro hmem
      rcases List.mem_append.mp hmem with hm | hm
      · exact H.unbroken hm
      · simp at hm
  | @fillPush t f i e g h hi =>
    have hl := (H.lockOk t _ h).mp rfl
    have hcl : claims (tr ++ [.tau]) = claims tr := by rw [claims_append]; simp [claims]
    have htr : trees (tr ++ [.tau]) = trees tr := by rw [trees_append]; simp [trees]
    have hfa : failures (tr ++ [.tau]) = failures tr := by rw [failures_append]; rfl
    have hff : fillFailures (tr ++ [.tau]) = fillFailures tr := by rw [fillFailures_append]; rfl
    obtain ⟨hi64, he64, hieq, hroom, heq⟩ := H.fillOk f i e g (List.mem_of_getElem? h)
    have hbig : ∀ f' fu, s.futs[f']? = some fu → f' < s.futs.length := fun f' fu hh => (List.getElem?_eq_some_iff.mp hh).1
    have hkeep : ∀ f' fu, s.futs[f']? = some fu →
        (s.futs ++ [{ idx := i, ready := false, taken := false }])[f']? = some fu := fun f' fu hh => by
      rw [List.getElem?_append_left (hbig f' fu hh)]; exact hh
    refine { lockOk := lockOk_set h H.lockOk (by simp [Pc.holds, hl]) (fun _ _ => Iff.rfl), lockIn := ?_, nodup := ?_, cacheOk := ?_, heldOk := ?_, fillOk := ?_, size := ?_, cur := ?_, order := ?_, acct := ?_, full := ?_, unbroken := ?_ }
    · intro u hu; simp only [List.length_set]; exact H.lockIn u hu
    · intro x
      have h1 := H.nodup x
      have h2 := cnt_set Pc.fut? x (.fill f (i + 1) e g) s.pcs t h
      simp only [Pc.fut?] at h2
      simp only [List.count_append, List.count_cons, List.count_nil]
      by_cases hx : s.futs.length = x
      · subst hx
        have z1 : s.cache.count s.futs.length = 0 := by
          rw [List.count_eq_zero]
          intro hm
          obtain ⟨j, hj⟩ := List.mem_iff_getElem?.mp hm
          obtain ⟨fu, a1, _⟩ := H.cacheOk j _ hj
          have := hbig _ _ a1
          omega
        have z2 : (s.pcs.filterMap Pc.fut?).count s.futs.length = 0 := by
          rw [List.count_eq_zero]
          intro hm
          obtain ⟨q, hq, hqf⟩ := List.mem_filterMap.mp hm
          have : ∃ g', q.held? = some (s.futs.length, g') := by
            cases q <;> simp only [Pc.fut?, Option.some.injEq, reduceCtorEq] at hqf <;> exact ⟨_, by simp only [Pc.held?, hqf]; rfl⟩
          obtain ⟨g', hg'⟩ := this
          obtain ⟨fu, a1, _⟩ := H.heldOk q hq _ _ hg'
          have := hbig _ _ a1
          omega
        simp only [beq_self_eq_true, if_true]
        omega
      · have : (s.futs.length == x) = false := by simpa using hx
        rw [this]
        simp only [Bool.false_eq_true, if_false]
        omega
    · intro j f' hj
      simp only at hj
      rcases Nat.lt_or_ge j s.cache.length with hlt | hge
      · rw [List.getElem?_append_left hlt] at hj
        obtain ⟨fu, a1, a2, a3⟩ := H.cacheOk j f' hj
        exact ⟨fu, hkeep _ _ a1, a2, a3⟩
      · rw [List.getElem?_append_right hge] at hj
        have hj0 : j - s.cache.length = 0 := by
          rcases Nat.eq_zero_or_pos (j - s.cache.length) with h0 | h0
          · exact h0
          · rw [List.getElem?_eq_none (by simp; omega)] at hj; cases hj
        rw [hj0] at hj
        simp only [List.getElem?_cons_zero, Option.some.injEq] at hj
        subst hj
        refine ⟨{ idx := i, ready := false, taken := false }, ?_, ?_, rfl⟩
        · rw [List.getElem?_append_right (Nat.le_refl _), Nat.sub_self]; rfl
        · simp only; rw [hieq]; congr 2; omega
    · intro q hq f' g' hh
      have : ∃ fu, s.futs[f']? = some fu ∧ fu.idx = g' ∧ fu.taken = false := by
        rcases mem_set_cases hq with hq | rfl
        · exact H.heldOk q hq f' g' hh
        · exact H.heldOk _ (List.mem_of_getElem? h) f' g' hh
      obtain ⟨fu, a1, a2, a3⟩ := this
      exact ⟨fu, hkeep _ _ a1, a2, a3⟩
    · intro f' i' e' g' hq
      have : Pc.fill f' i' e' g' = .fill f (i + 1) e g := by
        obtain ⟨u, hu⟩ := List.mem_iff_getElem?.mp hq
        by_cases hut : u = t
        · subst hut
          simp only at hu
          rw [List.getElem?_set_self (List.getElem?_eq_some_iff.mp h).1] at hu
          cases hu; rfl
        · simp only at hu
          rw [List.getElem?_set_ne (fun x => hut x.symm)] at hu
          have := (H.lockOk u _ hu).mp rfl
          rw [hl] at this
          cases this
          exact absurd rfl hut
      cases this
      simp only [List.length_append, List.length_singleton]
      refine ⟨by omega, he64, by omega, by omega, heq⟩
    · simp only [List.length_append, List.length_singleton]; omega
    · rw [hcl]; exact H.cur
    · rw [hcl]; exact H.order
    · obtain ⟨is, lost, h1, h2, h3⟩ := H.acct
      refine ⟨is, lost, by rw [htr]; exact h1, by rw [hfa]; exact h2, ?_⟩
      intro x
      have a1 := cnt_set Pc.got? x (.fill f (i + 1) e g) s.pcs t h
      have a2 := cnt_set Pc.lost? x (.fill f (i + 1) e g) s.pcs t h
      have a3 := h3 x
      rw [hcl]
      simp only [Pc.got?, Pc.lost?, Option.toList_none, Option.toList_some, List.count_nil] at a1 a2
      simp only; omega
    · rw [hcl, hff]
      intro f1 f2 f3
      have hold : ∀ q ∈ s.pcs, q.lost? = none := by
        intro q hq
        by_cases hqp : q = .fill f i e g
        · subst hqp; rfl
        · exact f2 q (mem_set_other h hq hqp)
      right
      refine ⟨f, i + 1, e, g, mem_set_self' h, ?_⟩
      simp only [List.length_append, List.length_singleton]
      rcases H.full f1 hold f3 with hx | ⟨f', i', e', g', hx, hy⟩
      · omega
      · have := H.alone h rfl hx rfl
        cases this
        omega
    · intro hmem
      rcases List.mem_append.mp hmem with hm | hm
      · exact H.unbroken hm
      · simp at hm
  | @build t i h =>
    have hl := H.lockOk t _ h
    refine H.quiet (futs' := s.futs) h (by simpa [Pc.holds] using hl) (fun _ _ => Iff.rfl) (Or.inr rfl) (Or.inr rfl) (fun f fu _ hf => ⟨fu, hf, rfl, rfl⟩) (by intros; simp) (by simp) (by rw [fillFailures_append]; simp [fillFailures]) (fun _ _ => rfl) ?_ rfl (by simp)
    obtain ⟨is, lost, h1, h2, h3⟩ := H.acct
    refine ⟨is ++ [i], lost, by rw [trees_append, h1, List.map_append]; rfl, by rw [failures_append]; exact h2, ?_⟩
    intro x
    have a1 := cnt_set Pc.got? x .idle s.pcs t h
    have a2 := cnt_set Pc.lost? x .idle s.pcs t h
    have a3 := h3 x
    simp only [Pc.got?, Pc.lost?, Option.toList_none, Option.toList_some, List.count_nil] at a1 a2
    rw [List.count_append]
    omega
  | @get t f g fu h hf hr ht =>
    have hl := H.lockOk t _ h
    obtain ⟨fu', b1, b2, b3⟩ := H.heldOk _ (List.mem_of_getElem? h) f g rfl
    rw [hf] at b1
    cases b1
    refine H.quiet (futs' := s.futs.set f { fu with taken := true }) h (by simpa [Pc.holds] using hl) (fun _ _ => Iff.rfl) (Or.inr rfl) (Or.inr rfl) ?_ (by intros; simp) (by simp) (by rw [fillFailures_append]; simp [fillFailures]) (fun _ _ => rfl) ?_ rfl (by simp)
    · intro f' fu' hcnt hf'
      have hne : f ≠ f' := by
        rintro rfl
        have a1 := cnt_set Pc.fut? f .idle s.pcs t h
        have a2 := H.nodup f
        simp only [Pc.fut?, Option.toList_none, Option.toList_some, List.count_nil, List.count_cons, beq_self_eq_true, if_true] at a1
        omega
      exact ⟨fu', by rw [List.getElem?_set_ne hne]; exact hf', rfl, rfl⟩
    · obtain ⟨is, lost, h1, h2, h3⟩ := H.acct
      refine ⟨is ++ [g], lost, by rw [trees_append, h1, List.map_append, b2]; rfl, by rw [failures_append]; exact h2, ?_⟩
      intro x
      have a1 := cnt_set Pc.got? x .idle s.pcs t h
      have a2 := cnt_set Pc.lost? x .idle s.pcs t h
      have a3 := h3 x
      simp only [Pc.got?, Pc.lost?, Option.toList_none, Option.toList_some, List.count_nil] at a1 a2
      rw [List.count_append]
      omega
  | @getFail t f g fu h hf hr ht =>
    have hl := H.lockOk t _ h
    obtain ⟨fu', b1, b2, b3⟩ := H.heldOk _ (List.mem_of_getElem? h) f g rfl
    rw [hf] at b1
    cases b1
    refine H.quiet (futs' := s.futs.set f { fu with taken := true }) h (by simpa [Pc.holds] using hl) (fun _ _ => Iff.rfl) (Or.inr rfl) (Or.inr rfl) ?_ (by intros; simp) (by simp) (by rw [fillFailures_append]; simp [fillFailures]) (fun _ _ => rfl) ?_ rfl (by simp)
    · intro f' fu' hcnt hf'
      have hne : f ≠ f' := by
        rintro rfl
        have a1 := cnt_set Pc.fut? f .idle s.pcs t h
        have a2 := H.nodup f
        simp only [Pc.fut?, Option.toList_none, Option.toList_some, List.count_nil, List.count_cons, beq_self_eq_true, if_true] at a1
        omega
      exact ⟨fu', by rw [List.getElem?_set_ne hne]; exact hf', rfl, rfl⟩
    · obtain ⟨is, lost, h1, h2, h3⟩ := H.acct
      refine ⟨is, lost ++ [g], by rw [trees_append, h1]; simp [trees], by rw [failures_append, List.length_append, h2]; rfl, ?_⟩
      intro x
      have a1 := cnt_set Pc.got? x .idle s.pcs t h
      have a2 := cnt_set Pc.lost? x .idle s.pcs t h
      have a3 := h3 x
      simp only [Pc.got?, Pc.lost?, Option.toList_none, Option.toList_some, List.count_nil] at a1 a2
      rw [List.count_append]
      omega
  | @buildFail t i h =>
    have hl := H.lockOk t _ h
    refine H.quiet (futs' := s.futs) h (by simpa [Pc.holds] using hl) (fun _ _ => Iff.rfl) (Or.inr rfl) (Or.inr rfl) (fun f fu _ hf => ⟨fu, hf, rfl, rfl⟩) (by intros; simp) (by simp) (by rw [fillFailures_append]; simp [fillFailures]) (fun _ _ => rfl) ?_ rfl (by simp)
    obtain ⟨is, lost, h1, h2, h3⟩ := H.acct
    refine ⟨is, lost ++ [i], by rw [trees_append, h1]; simp [trees], by rw [failures_append, List.length_append, h2]; rfl, ?_⟩
    intro x
    have a1 := cnt_set Pc.got? x .idle s.pcs t h
    have a2 := cnt_set Pc.lost? x .idle s.pcs t h
    have a3 := h3 x
    simp only [Pc.got?, Pc.lost?, Option.toList_none, Option.toList_some, List.count_nil] at a1 a2
    rw [List.count_append]
    omega
  | @unwound t f g fu h hf hr =>
    have hl := H.lockOk t _ h
    refine H.quiet (futs' := s.futs) h (by simpa [Pc.holds] using hl) (fun _ _ => Iff.rfl) (Or.inr rfl) (Or.inr rfl) (fun f fu _ hf => ⟨fu, hf, rfl, rfl⟩) (by intros; simp) (by simp) (by rw [fillFailures_append]; simp [fillFailures]) (by rw [fillFailures_append]; simp [fillFailures]) ?_ rfl (by simp)
    obtain ⟨is, lost, h1, h2, h3⟩ := H.acct
    refine ⟨is, lost ++ [g], by rw [trees_append, h1]; simp [trees], by rw [failures_append, List.length_append, h2]; rfl, ?_⟩
    intro x
    have a1 := cnt_set Pc.got? x .idle s.pcs t h
    have a2 := cnt_set Pc.lost? x .idle s.pcs t h
    have a3 := h3 x
    simp only [Pc.got?, Pc.lost?, Option.toList_none, Option.toList_some, List.count_nil] at a1 a2
    rw [List.count_append]
    omega
  | @finish f fu hf hr =>
    have hcl : claims (tr ++ [.tau]) = claims tr := by rw [claims_append]; simp [claims]
    have htr : trees (tr ++ [.tau]) = trees tr := by rw [trees_append]; simp [trees]
    have hfa : failures (tr ++ [.tau]) = failures tr := by rw [failures_append]; rfl
    have hff : fillFailures (tr ++ [.tau]) = fillFailures tr := by rw [fillFailures_append]; rfl
    have hkeep : ∀ (f' : Nat) (fu' : Fut), s.futs[f']? = some fu' → ∃ fu'' : Fut, (s.futs.set f { fu with ready := true })[f']? = some fu'' ∧
        fu''.idx = fu'.idx ∧ fu''.taken = fu'.taken := by
      intro f' fu' h'
      by_cases hne : f = f'
      · subst hne
        rw [hf] at h'
        cases h'
        exact ⟨_, List.getElem?_set_self (List.getElem?_eq_some_iff.mp hf).1, rfl, rfl⟩
      · exact ⟨fu', by rw [List.getElem?_set_ne hne]; exact h', rfl, rfl⟩
    refine { lockOk := H.lockOk, lockIn := H.lockIn, nodup := H.nodup, cacheOk := ?_, heldOk := ?_, fillOk := H.fillOk, size := H.size, cur := ?_, order := ?_, acct := ?_, full := ?_, unbroken := ?_ }
    · intro j f' hj
      obtain ⟨fu', a1, a2, a3⟩ := H.cacheOk j f' hj
      obtain ⟨fu'', c1, c2, c3⟩ := hkeep f' fu' a1
      exact ⟨fu'', c1, by rw [c2]; exact a2, by rw [c3]; exact a3⟩
    · intro q hq f' g' hh
      obtain ⟨fu', a1, a2, a3⟩ := H.heldOk q hq f' g' hh
      obtain ⟨fu'', c1, c2, c3⟩ := hkeep f' fu' a1
      exact ⟨fu'', c1, by rw [c2]; exact a2, by rw [c3]; exact a3⟩
    · rw [hcl]; exact H.cur
    · rw [hcl]; exact H.order
    · rw [hcl, htr, hfa]; exact H.acct
    · rw [hcl, hff]; exact H.full
    · intro hmem
      rcases List.mem_append.mp hmem with hm | hm
      · exact H.unbroken hm
      · simp at hm

theorem pinv_run {cfg : PoolCfg} {n : Nat} {s : Pool} {tr : List Ev} (h : PoolRun cfg (poolNew cfg n) tr s) :
    PInv cfg s tr := by
  induction h with
  | refl => exact pinv_init cfg n
  | step h hs ih => exact pinv_step ih hs

end Qrl
