import Verif.Proof.PoolTrace
import Verif.Props.Fast
/-!
# C28–C31: the pool of trees, under every schedule

`PoolRun cfg (poolNew cfg n) tr s`: some schedule of the pool `cfg` with `n` client threads showed `tr` and is now in
state `s`. Nothing is assumed about the schedule.
-/

namespace Qrl.Props

open Outcome Spec

/-- C28. The indices claimed by `getNextTree` calls are, in lock order, `start`, `start + 1`, `start + 2`, …
(in `size_t`), with none left out. -/
theorem C28_pool_in_order (cfg : PoolCfg) (n : Nat) (tr : List Ev) (s : Pool)
    (h : PoolRun cfg (poolNew cfg n) tr s) :
    claims tr = (List.range (claims tr).length).map fun k => (cfg.start.toNat + k) % 2 ^ 64 :=
  (pinv_run h).order

/-- C28. No index is claimed twice in fewer than `2^64` claims. -/
theorem C28_pool_once (cfg : PoolCfg) (n : Nat) (tr : List Ev) (s : Pool) (h : PoolRun cfg (poolNew cfg n) tr s)
    (hlt : (claims tr).length ≤ 2 ^ 64) : (claims tr).Nodup := by
  rw [C28_pool_in_order cfg n tr s h]
  apply List.Nodup.map_on _ List.nodup_range
  intro x hx y hy hxy
  rw [List.mem_range] at hx hy
  omega

/-- C28. What `getCurrentIndex()` returns is `start` plus the number of claims made so far. -/
theorem C28_pool_current (cfg : PoolCfg) (n : Nat) (tr tr' : List Ev) (t i : Nat) (s : Pool)
    (h : PoolRun cfg (poolNew cfg n) (tr ++ .index t i :: tr') s) :
    i = (cfg.start.toNat + (claims tr).length) % 2 ^ 64 := by
  obtain ⟨s1, s2, h1, h2⟩ := run_at h
  have := (pinv_run h1).cur
  cases h2 with
  | index _ => exact this

/-- C28. At most one thread is in a critical section, and it owns the lock. -/
theorem C28_pool_mutex (cfg : PoolCfg) (n : Nat) (tr : List Ev) (s : Pool) (h : PoolRun cfg (poolNew cfg n) tr s)
    (t u : Nat) (p q : Pc) (hp : s.pcs[t]? = some p) (hq : s.pcs[u]? = some q) (h1 : p.holds = true)
    (h2 : q.holds = true) : t = u := by
  have a := ((pinv_run h).lockOk t p hp).mp h1
  have b := ((pinv_run h).lockOk u q hq).mp h2
  rw [a] at b
  cases b
  rfl

/-- C28, C29. The trees returned are the trees of different claimed indices: there is a list of indices, each claimed
and none used more often than it was claimed, whose trees (or exceptions) are the ones returned, in order. -/
theorem C29_pool_trees (cfg : PoolCfg) (n : Nat) (tr : List Ev) (s : Pool) (h : PoolRun cfg (poolNew cfg n) tr s) :
    ∃ is : List Nat, trees tr = is.map (prepareTree cfg) ∧ List.Subperm is (claims tr) := by
  obtain ⟨is, lost, h1, _, h3⟩ := (pinv_run h).acct
  refine ⟨is, h1, ?_⟩
  rw [List.subperm_ext_iff]
  intro x _
  have := h3 x
  omega

/-- C28. When no call is in progress, the indices of the returned trees and those lost to failures (a thread not
started or not stored, or too little memory for the tree) are exactly the claimed ones; so without such failures none is skipped. -/
theorem C28_pool_none_skipped (cfg : PoolCfg) (n : Nat) (tr : List Ev) (s : Pool)
    (h : PoolRun cfg (poolNew cfg n) tr s) (hq : quiescent s) :
    ∃ is lost : List Nat, trees tr = is.map (prepareTree cfg) ∧ lost.length = failures tr ∧
      (is ++ lost).Perm (claims tr) := by
  obtain ⟨is, lost, h1, h2, h3⟩ := (pinv_run h).acct
  refine ⟨is, lost, h1, h2, ?_⟩
  have z : ∀ g : Pc → Option Nat, g .idle = none → s.pcs.filterMap g = [] := by
    intro g hg
    rw [List.filterMap_eq_nil_iff]
    intro a ha
    rw [hq a ha]; exact hg
  rw [List.perm_iff_count]
  intro x
  have := h3 x
  rw [z _ rfl, z _ rfl] at this
  rw [List.count_append]
  simpa using this

/-- C29. The tree a thread gets is the one derived from the index this thread claimed in the same call, whether it came
from the cache or was built inline, and in whatever order background tasks finished; exceptions of tree building
arrive unchanged. -/
theorem C29_pool_tree_of_claim (cfg : PoolCfg) (n : Nat) (tr tr' : List Ev) (t : Nat) (r : Outcome XmssFast) (s : Pool)
    (h : PoolRun cfg (poolNew cfg n) (tr ++ .tree t r :: tr') s) :
    ∃ i, lastClaim t tr = some i ∧ r = prepareTree cfg i := by
  obtain ⟨s1, s2, h1, h2⟩ := run_at h
  have H := pinv_run h1
  have L := last_run h1
  cases h2 with
  | @build _ i hp => exact ⟨i, L t _ i hp rfl, rfl⟩
  | @get _ f g fu hp hf _ _ =>
    obtain ⟨fu', a1, a2, _⟩ := H.heldOk _ (List.mem_of_getElem? hp) f g rfl
    rw [hf] at a1
    cases a1
    exact ⟨g, L t _ g hp rfl, by rw [a2]⟩

/-- C29. With a good height every derived tree exists: it is the `XmssFast` of the 48-byte SHAKE256 digest of
base seed ‖ index + 1 (little-endian, no leading zeros), SHAKE_128. With a height that is not an even number of at
least 4, every derivation throws `invalid_argument`. -/
theorem C29_pool_tree_value (cfg : PoolCfg) (i : Nat) :
    (GoodHeight cfg.height → ∃ o, prepareTree cfg i = ok o ∧
      o.seed = shake256 48 (cfg.baseSeed ++ indexBytes ((i + 1) % 2 ^ 64)) ∧ o.height = cfg.height ∧
      o.hashFunction = 1 ∧ o.getIndex = ok 0) ∧
    (cfg.height.toNat < 4 ∨ cfg.height.toNat % 2 = 1 → prepareTree cfg i = .throw .invalidArgument) := by
  have hl : (shake256 48 (treeSeedInput cfg.baseSeed i)).length = 48 := length_shake256 ..
  constructor
  · intro hg
    obtain ⟨o, ho⟩ := (C39_fast_succeeds cfg.S (shake256 48 (treeSeedInput cfg.baseSeed i)) cfg.height 1
      addrFormatSHA256_2X).mpr ⟨hl, hg, by omega⟩
    obtain ⟨_, _, _, _, _, e1, e2, _, e4, _, _, _, _, _, H⟩ := fast_fresh ho
    have := H.getIndex 0 (Nat.zero_le _)
    rw [fastAt_zero H] at this
    exact ⟨o, ho, e4, e1, e2, this⟩
  · intro hb
    exact (C39_fast_throws _ _ _ _ _ _).mpr ⟨rfl, Or.inr hb⟩

theorem indexBytes_inj : ∀ (a b : Nat), indexBytes a = indexBytes b → a = b := by
  intro a
  induction a using Nat.strongRecOn with
  | _ a ih =>
    intro b h
    rw [indexBytes.eq_def a, indexBytes.eq_def b] at h
    by_cases ha : a > 0
    · by_cases hb : b > 0
      · rw [dif_pos ha, dif_pos hb] at h
        injection h with h1 h2
        have e := ih (a >>> 8) (by rw [Nat.shiftRight_eq_div_pow]; exact Nat.div_lt_self ha (by omega)) (b >>> 8) h2
        rw [Nat.shiftRight_eq_div_pow, Nat.shiftRight_eq_div_pow] at e
        have e1 : a &&& 0xFF = a % 256 := Nat.and_two_pow_sub_one_eq_mod _ 8
        have e2 : b &&& 0xFF = b % 256 := Nat.and_two_pow_sub_one_eq_mod _ 8
        rw [e1, e2] at h1
        have := congrArg UInt8.toNat h1
        simp only [UInt8.toNat_ofNat'] at this
        omega
      · rw [dif_pos ha, dif_neg hb] at h; cases h
    · by_cases hb : b > 0
      · rw [dif_neg ha, dif_pos hb] at h; cases h
      · omega

/-- C30. For one base seed, different 64-bit indices give different inputs to SHAKE256: two equal derived seeds from
different indices are a SHAKE256 collision. -/
theorem C30_pool_inputs (base : Bytes) (i j : Nat) (hi : i < 2 ^ 64) (hj : j < 2 ^ 64) (hne : i ≠ j) :
    treeSeedInput base i ≠ treeSeedInput base j := by
  intro h
  have := indexBytes_inj _ _ (List.append_cancel_left h)
  omega

/-- C31. The cache never holds more than `pool_size` futures; the `j`-th is the future of the tree with index
`getCurrentIndex() + j`, and nobody has taken it; they are all different. -/
theorem C31_pool_cache (cfg : PoolCfg) (n : Nat) (tr : List Ev) (s : Pool) (h : PoolRun cfg (poolNew cfg n) tr s) :
    s.cache.length ≤ cfg.poolSize.toNat ∧ s.cache.Nodup ∧
    ∀ j f, s.cache[j]? = some f →
      ∃ fu, s.futs[f]? = some fu ∧ fu.idx = (s.current + j) % 2 ^ 64 ∧ fu.taken = false := by
  have H := pinv_run h
  refine ⟨H.size, ?_, H.cacheOk⟩
  rw [List.nodup_iff_count_le_one]
  intro x
  have := H.nodup x
  omega

/-- C31. No future is waited for twice, in any schedule. -/
theorem C31_pool_get_once (cfg : PoolCfg) (n : Nat) (tr : List Ev) (s : Pool)
    (h : PoolRun cfg (poolNew cfg n) tr s) : Ev.broken ∉ tr :=
  (pinv_run h).unbroken

/-- C31. Without failures to start a thread or store its future (past or under way), and before the index runs over, the cache has exactly
`pool_size` futures whenever nobody holds the lock. -/
theorem C31_pool_full (cfg : PoolCfg) (n : Nat) (tr : List Ev) (s : Pool) (h : PoolRun cfg (poolNew cfg n) tr s)
    (hf : fillFailures tr = 0) (hu : ∀ f g, Pc.unwind f g ∉ s.pcs) (hl : s.lock = none)
    (hlt : cfg.start.toNat + (claims tr).length + cfg.poolSize.toNat < 2 ^ 64) :
    s.cache.length = cfg.poolSize.toNat := by
  have H := pinv_run h
  rcases H.full hf (by
    intro pc hpc
    cases pc with
    | unwind f g => exact absurd hpc (hu f g)
    | drop f m g =>
      obtain ⟨t, ht⟩ := List.mem_iff_getElem?.mp hpc
      have := (H.lockOk t _ ht).mp rfl
      rw [hl] at this
      cases this
    | _ => rfl) hlt with hx | ⟨f, i, e, g, hx, _⟩
  · exact hx
  · obtain ⟨t, ht⟩ := List.mem_iff_getElem?.mp hx
    have := (H.lockOk t _ ht).mp rfl
    rw [hl] at this
    cases this

/-- C31. A call that took its tree from the cache leaves it full when it releases the lock, also if earlier calls
failed to refill it (before the index runs over). -/
theorem C31_pool_refilled (cfg : PoolCfg) (n : Nat) (tr : List Ev) (s : Pool) (h : PoolRun cfg (poolNew cfg n) tr s)
    (t f g : Nat) (hpc : s.pcs[t]? = some (.unlockHit f g)) (hlt : s.current + cfg.poolSize.toNat < 2 ^ 64) :
    s.cache.length = cfg.poolSize.toNat :=
  refilled_run h f g (List.mem_of_getElem? hpc) hlt

/-- C31. `isAvailable()` returns true exactly when the cache is non-empty and the task of its front, which is the tree
of the current index, has finished. -/
theorem C31_pool_available (cfg : PoolCfg) (n : Nat) (tr : List Ev) (t : Nat) (b : Bool) (s s' : Pool)
    (h : PoolRun cfg (poolNew cfg n) tr s) (hs : PoolStep cfg s (.available t b) s') :
    b = true ↔ ∃ f rest fu, s.cache = f :: rest ∧ s.futs[f]? = some fu ∧ fu.idx = s.current ∧ fu.ready = true := by
  have H := pinv_run h
  have hcur : s.current < 2 ^ 64 := by rw [H.cur]; omega
  generalize he : Ev.available t b = e at hs
  cases hs with
  | availEmpty _ hc =>
    cases he
    constructor
    · intro x; cases x
    · rintro ⟨f, rest, fu, x, _⟩; rw [hc] at x; cases x
  | @availFront _ f rest fu _ hc hf =>
    cases he
    obtain ⟨fu', a1, a2, _⟩ := H.cacheOk 0 f (by rw [hc]; rfl)
    rw [hf] at a1
    cases a1
    constructor
    · intro x; exact ⟨f, rest, fu, hc, hf, by rw [a2]; omega, x⟩
    · rintro ⟨f', rest', fu', x, y, _, z⟩
      rw [hc] at x
      cases x
      rw [hf] at y
      cases y
      exact z
  | _ => cases he

/-- C31. Once the cache is empty while the lock is free (pool_size 0, or failures to refill it emptied it), it is
empty for ever: later calls build their trees inline. -/
theorem C31_pool_empty_forever (cfg : PoolCfg) (n : Nat) (tr tr' : List Ev) (s s' : Pool)
    (h : PoolRun cfg (poolNew cfg n) tr s) (hl : s.lock = none) (hc : s.cache = []) (h' : PoolRun cfg s tr' s') :
    s'.cache = [] := by
  refine (empty_stays h' hc ?_).1
  intro f i e g hm
  obtain ⟨t, ht⟩ := List.mem_iff_getElem?.mp hm
  have := ((pinv_run h).lockOk t _ ht).mp rfl
  rw [hl] at this
  cases this

/-- C28. The pool does not get stuck: while some call is in progress, some thread or background task can make a step
other than starting another call. -/
theorem C28_pool_no_deadlock (cfg : PoolCfg) (n : Nat) (tr : List Ev) (s : Pool)
    (h : PoolRun cfg (poolNew cfg n) tr s) (hq : ¬ quiescent s) :
    ∃ e s', PoolStep cfg s e s' ∧ ∀ t, e ≠ .call t :=
  no_deadlock (pinv_run h) hq

/-- C28. From any reachable state, a schedule in which no new call starts has a bounded number of steps. With
`C28_pool_no_deadlock`: if threads keep being scheduled, every call returns. -/
theorem C28_pool_terminates (cfg : PoolCfg) (n : Nat) (tr : List Ev) (s : Pool)
    (h : PoolRun cfg (poolNew cfg n) tr s) :
    ∃ bound, ∀ tr' s', PoolRun cfg s tr' s' → (∀ t, Ev.call t ∉ tr') → tr'.length ≤ bound := by
  refine ⟨poolWork cfg s, ?_⟩
  intro tr' s' hr hnc
  have : tr'.length + poolWork cfg s' ≤ poolWork cfg s := by
    induction hr with
    | refl => simp
    | @step s1 s2 tr1 e hr hs ih =>
      have h1 := ih (fun t hm => hnc t (List.mem_append_left _ hm))
      have h2 := work_step (pinv_run (run_trans h hr)) hs (by
        intro t he; subst he; exact hnc t (List.mem_append_right _ (List.mem_singleton.mpr rfl)))
      rw [List.length_append, List.length_singleton]
      omega
  omega

/-- C28. Every reachable state can be completed without new calls to one in which no call is in progress. -/
theorem C28_pool_completes (cfg : PoolCfg) (n : Nat) (tr : List Ev) (s : Pool)
    (h : PoolRun cfg (poolNew cfg n) tr s) :
    ∃ tr' s', PoolRun cfg s tr' s' ∧ (∀ t, Ev.call t ∉ tr') ∧ quiescent s' := by
  generalize hw : poolWork cfg s = w
  induction w using Nat.strongRecOn generalizing s tr with
  | _ w ih =>
    by_cases hq : quiescent s
    · exact ⟨[], s, .refl _, by simp, hq⟩
    · obtain ⟨e, s1, hs, hne⟩ := C28_pool_no_deadlock cfg n tr s h hq
      have hlt := work_step (pinv_run h) hs hne
      obtain ⟨tr', s', r, hnc, hq'⟩ := ih _ (by omega) (tr ++ [e]) s1 (.step h hs) rfl
      refine ⟨[e] ++ tr', s', run_trans (.step (.refl _) hs) r, ?_, hq'⟩
      intro t hm
      rcases List.mem_append.mp hm with hm | hm
      · simp only [List.mem_singleton] at hm; exact hne t hm.symm
      · exact hnc t hm

/-- A concrete schedule: two threads, pool of one; both claim (0 from the cache, 1 by the second thread from the
refilled cache) before any task has finished, and the second gets its tree first. -/
def demoCfg : PoolCfg := { S := toySha, baseSeed := [7], height := 4, start := 0, poolSize := 1 }

theorem demo_run : ∃ tr s, PoolRun demoCfg (poolNew demoCfg 2) tr s ∧ claims tr = [0, 1] ∧
    trees tr = [prepareTree demoCfg 1, prepareTree demoCfg 0] ∧ quiescent s := by
  have r0 : PoolRun demoCfg (poolNew demoCfg 2) [] ⟨0, [0], [⟨0, false, false⟩], none, [.idle, .idle]⟩ := .refl _
  have r1 := r0.step (.callNext (t := 0) rfl)
  have r2 := r1.step (.lockNext (t := 0) rfl rfl)
  have r3 := r2.step (.hit (t := 0) rfl rfl)
  have r4 := r3.step (.fillPush (t := 0) (i := 1) (e := 2) rfl (by decide))
  have r5 := r4.step (.fillDone (t := 0) (i := 2) (e := 2) rfl (by decide))
  have r6 := r5.step (.unlockHit (t := 0) rfl)
  have r7 := r6.step (.callNext (t := 1) rfl)
  have r8 := r7.step (.lockNext (t := 1) rfl rfl)
  have r9 := r8.step (.hit (t := 1) rfl rfl)
  have r10 := r9.step (.fillPush (t := 1) (i := 2) (e := 3) rfl (by decide))
  have r11 := r10.step (.fillDone (t := 1) (i := 3) (e := 3) rfl (by decide))
  have r12 := r11.step (.unlockHit (t := 1) rfl)
  have r13 := r12.step (.finish (f := 1) rfl rfl)
  have r14 := r13.step (.get (t := 1) (f := 1) (g := 1) rfl rfl rfl rfl)
  have r15 := r14.step (.finish (f := 0) rfl rfl)
  have r16 := r15.step (.get (t := 0) (f := 0) (g := 0) rfl rfl rfl rfl)
  refine ⟨_, _, r16, rfl, rfl, ?_⟩
  intro pc hpc
  simpa using hpc

/-- A concrete schedule with too little memory: the first call claims 0, cannot store the future of the task it started for
the cache, waits for that task with the lock held, and throws; the second claims 1, builds it inline and runs out of memory;
the third claims 2 and gets its tree. Indices 0 and 1 are lost, none is handed out twice. -/
theorem demo_memory : ∃ tr s, PoolRun demoCfg (poolNew demoCfg 1) tr s ∧ claims tr = [0, 1, 2] ∧
    trees tr = [prepareTree demoCfg 2] ∧ failures tr = 2 ∧ fillFailures tr = 1 ∧ quiescent s := by
  have r0 : PoolRun demoCfg (poolNew demoCfg 1) [] ⟨0, [0], [⟨0, false, false⟩], none, [.idle]⟩ := .refl _
  have r1 := r0.step (.callNext (t := 0) rfl)
  have r2 := r1.step (.lockNext (t := 0) rfl rfl)
  have r3 := r2.step (.hit (t := 0) rfl rfl)
  have r4 := r3.step (.pushFail (t := 0) (i := 1) (e := 2) rfl (by decide))
  have r5 := r4.step (.finish (f := 1) rfl rfl)
  have r6 := r5.step (.dropped (t := 0) (f := 0) (n := 1) (g := 0) rfl (by intro fu h; simp at h; rw [← h]))
  have r7 := r6.step (.finish (f := 0) rfl rfl)
  have r8 := r7.step (.unwound (t := 0) (f := 0) (g := 0) rfl rfl rfl)
  have r9 := r8.step (.callNext (t := 0) rfl)
  have r10 := r9.step (.lockNext (t := 0) rfl rfl)
  have r11 := r10.step (.miss (t := 0) rfl rfl)
  have r12 := r11.step (.unlockMiss (t := 0) (i := 1) rfl)
  have r13 := r12.step (.buildFail (t := 0) (i := 1) rfl)
  have r14 := r13.step (.callNext (t := 0) rfl)
  have r15 := r14.step (.lockNext (t := 0) rfl rfl)
  have r16 := r15.step (.miss (t := 0) rfl rfl)
  have r17 := r16.step (.unlockMiss (t := 0) (i := 2) rfl)
  have r18 := r17.step (.build (t := 0) (i := 2) rfl)
  refine ⟨_, _, r18, rfl, rfl, rfl, rfl, ?_⟩
  intro pc hpc
  simpa using hpc

end Qrl.Props
