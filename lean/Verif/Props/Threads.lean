import Verif.Proof.ThreadsBasic
import Verif.Props.Reuse
import Verif.Props.BasicFull
/-!
# C75: one object called by several threads
-/

namespace Qrl.Props

open Outcome Spec

/-- C75. A call made alone, step by step, is the call: after any history, eight steps of one call end it with the reply and the
object the call as a whole gives. -/
theorem C75_alone (S : Sha256) (seed : Bytes) (height : UInt8) (hf af : Nat) (o0 : XmssFast)
    (hnew : XmssFast.new S seed height hf af = ok o0) (cs : List Call) (rs : List Reply) (o : XmssFast)
    (hrun : runCalls (XmssFast.call S) o0 cs = some (rs, o)) (c : Call) :
    ∃ r o', o.call S c = some (r, o') ∧
      runSchedule (fastStep S) (List.replicate 8 0) (fastThreads o [c]) = (o', [.done r]) := by
  obtain ⟨f, p, k, q, j, hf1, hf2, hg, hs, rfl, e2, e5, hp, H, hj, hgi, _, _, rfl⟩ := fast_reach hnew hrun
  obtain ⟨r, o', e1, e3⟩ := fastCall_alone H j hj c
  refine ⟨r, o', e1, ?_⟩
  have key : ∀ (n : Nat) (o : XmssFast) (pc : FastPc), runSchedule (fastStep S) (List.replicate n 0) (o, [pc]) =
      ((iterStep (fastStep S) n (o, pc)).1, [(iterStep (fastStep S) n (o, pc)).2]) := by
    intro n
    induction n with
    | zero => intro o pc; rfl
    | succ n ih => intro o pc; rw [List.replicate_succ, runSchedule]; exact ih _ _
  rw [fastThreads, List.map_cons, List.map_nil, key, e3]

/-- C75. Calls on an `XmssFast` made by any number of threads, of which only one at a time is inside a call (a lock taken for
the whole call): every schedule is a history of whole calls. The calls that are over, in the order in which they ended, got
the replies that history gives; no call has undefined behaviour; and when no call is under way the object is as that history
leaves it. So everything proved of histories (C12, C16, C17, C19) holds of it. -/
theorem C75_fast_locked (S : Sha256) (seed : Bytes) (height : UInt8) (hf af : Nat) (o0 : XmssFast)
    (hnew : XmssFast.new S seed height hf af = ok o0) (cs : List Call) (rs : List Reply) (o : XmssFast)
    (hrun : runCalls (XmssFast.call S) o0 cs = some (rs, o)) (calls : List Call) (sched : List Nat)
    (hex : Exclusive (fastStep S) fastIdle sched (fastThreads o calls)) (o' : XmssFast) (pcs : List FastPc)
    (h : runSchedule (fastStep S) sched (fastThreads o calls) = (o', pcs)) :
    ∃ (order : List (Nat × Call × Reply)) (o2 : XmssFast), (order.map (·.1)).Nodup ∧
      (∀ x ∈ order, calls[x.1]? = some x.2.1 ∧ pcs[x.1]? = some (.done x.2.2)) ∧
      (∀ (t : Nat) r, pcs[t]? = some (.done r) → ∃ x ∈ order, x.1 = t) ∧
      runCalls (XmssFast.call S) o (order.map (·.2.1)) = some (order.map (·.2.2), o2) ∧
      ((∀ (t : Nat) pc, pcs[t]? = some pc → fastIdle pc) → o' = o2) ∧
      ∀ t : Nat, pcs[t]? ≠ some .ub := by
  obtain ⟨f, p, k, q, j, hf1, hf2, hg, hs, rfl, e2, e5, hp, H, hj, hgi, _, _, rfl⟩ := fast_reach hnew hrun
  obtain ⟨order, o2, h1, h2, h3, h4, h5, h6⟩ := locked_history H.machine (calls := calls) ⟨j, hj, rfl⟩ sched hex o' pcs h
  refine ⟨order, o2, h1, h2, h3, h4, h5, ?_⟩
  intro t ht
  obtain ⟨c, _, hn⟩ := h6 t _ ht (fun h => h) (fun _ => rfl)
  obtain ⟨rs2, o3, e, _⟩ := C19_fast_defined S seed o0.height hf af o0 hnew (cs ++ order.map (·.2.1) ++ [c])
  have e1 : runCalls (XmssFast.call S) o0 (cs ++ order.map (·.2.1) ++ [c]) = none := by
    have app : ∀ (l1 : List Call) (l2 : List Call) (o : XmssFast) rs o1, runCalls (XmssFast.call S) o l1 = some (rs, o1) →
        runCalls (XmssFast.call S) o1 l2 = none → runCalls (XmssFast.call S) o (l1 ++ l2) = none := by
      intro l1
      induction l1 with
      | nil => intro l2 o rs o1 a b; cases a; exact b
      | cons d l1 ih =>
        intro l2 o rs o1 a b
        rw [List.cons_append, runCalls]
        rw [runCalls] at a
        cases hd : XmssFast.call S o d with
        | none => rfl
        | some y =>
          obtain ⟨r', o''⟩ := y
          rw [hd] at a
          simp only at a ⊢
          cases hr : runCalls (XmssFast.call S) o'' l1 with
          | none => rw [hr] at a; cases a
          | some z =>
            obtain ⟨rs', o3⟩ := z
            rw [hr] at a
            cases a
            rw [ih l2 o'' rs' o1 hr b]
    rw [List.append_assoc]
    refine app cs _ o0 rs _ hrun ?_
    refine app _ [c] _ _ o2 h4 ?_
    rw [runCalls, show XmssFast.call S o2 c = none from hn]
  rw [e1] at e
  cases e

/-- Every state a history of an `XmssBasic` reaches. -/
theorem basic_canon (S : Sha256) (seed : Bytes) (height : UInt8) (hf : HashFn) (af w : Nat)
    (hw : w = 2 ∨ w = 4 ∨ w = 16 ∨ w = 256) (hh : GoodHeight height) (h24 : height.toNat ≤ 24) (o0 : XmssBase)
    (hnew : XmssBasic.new S seed height hf.toNat af w = ok o0) (cs : List Call) (rs : List Reply) (o : XmssBase)
    (hrun : runCalls (XmssBasic.call S) o0 cs = some (rs, o)) :
    ∃ p k q, ∃ i : Nat, BasicOk S hf w (keyOf S hf w height.toNat (lenW_pos hw) seed) p k q o0 ∧ i < 2 ^ 32 ∧
      o = basicAt (keyOf S hf w height.toNat (lenW_pos hw) seed) o0 i ∧ o0.height = height := by
  have hs : seed.length = 48 := by
    apply Classical.byContradiction
    intro hne
    have := (C39_basic_throws S seed height hf.toNat af w hw .invalidArgument).mpr ⟨rfl, Or.inl hne⟩
    rw [this] at hnew; cases hnew
  obtain ⟨p, k, q, hp, h1, h2, e⟩ := basicNew_eq S seed height hf af w hw hs hh
  rw [e] at hnew
  cases hnew
  have h4 := hh.1
  obtain ⟨j, hj, rfl⟩ := basic_reach S hf hw hp h1 (keyOf S hf w height.toNat (lenW_pos hw) seed) cs _ 0 rs o rfl rfl
    (by simp only; omega) (by simp only; omega) rfl rfl (by omega) hrun
  exact ⟨p, k, q, j, ⟨hw, hp, h1, rfl, rfl, by simp only; omega, h24, rfl⟩, hj, rfl, rfl⟩

/-- C75. The same for an `XmssBasic` (heights up to 24). A call that has undefined behaviour is one that the history itself
makes undefined (`sign` at index `2^height` or more, C18). -/
theorem C75_basic_locked (S : Sha256) (seed : Bytes) (height : UInt8) (hf : HashFn) (af w : Nat)
    (hw : w = 2 ∨ w = 4 ∨ w = 16 ∨ w = 256) (hh : GoodHeight height) (h24 : height.toNat ≤ 24) (o0 : XmssBase)
    (hnew : XmssBasic.new S seed height hf.toNat af w = ok o0) (cs : List Call) (rs : List Reply) (o : XmssBase)
    (hrun : runCalls (XmssBasic.call S) o0 cs = some (rs, o)) (calls : List Call) (sched : List Nat)
    (hex : Exclusive (basicStep S) basicIdle sched (basicThreads o calls)) (o' : XmssBase) (pcs : List BasicPc)
    (h : runSchedule (basicStep S) sched (basicThreads o calls) = (o', pcs)) :
    ∃ (order : List (Nat × Call × Reply)) (o2 : XmssBase), (order.map (·.1)).Nodup ∧
      (∀ x ∈ order, calls[x.1]? = some x.2.1 ∧ pcs[x.1]? = some (.done x.2.2)) ∧
      (∀ (t : Nat) r, pcs[t]? = some (.done r) → ∃ x ∈ order, x.1 = t) ∧
      runCalls (XmssBasic.call S) o (order.map (·.2.1)) = some (order.map (·.2.2), o2) ∧
      ((∀ (t : Nat) pc, pcs[t]? = some pc → basicIdle pc) → o' = o2) ∧
      ∀ t : Nat, pcs[t]? = some .ub → ∃ c, calls[t]? = some c ∧ XmssBasic.call S o2 c = none := by
  obtain ⟨p, k, q, i, H, hi, rfl, _⟩ := basic_canon S seed height hf af w hw hh h24 o0 hnew cs rs o hrun
  obtain ⟨order, o2, h1, h2, h3, h4, h5, h6⟩ := locked_history H.machine (calls := calls) ⟨i, hi, rfl⟩ sched hex o' pcs h
  exact ⟨order, o2, h1, h2, h3, h4, h5, fun t ht => h6 t _ ht (fun h => h) (fun _ => rfl)⟩

/-- An object made from one fixed key: its getters. -/
theorem obj_getters (S : Sha256) (K : KeyParts) (o : XmssBase) (i j : Nat) :
    ({ o with sk := K.sk i } : XmssBase).getPK = ({ o with sk := K.sk j } : XmssBase).getPK ∧
    ({ o with sk := K.sk i } : XmssBase).getAddress S = ({ o with sk := K.sk j } : XmssBase).getAddress S ∧
    ({ o with sk := K.sk i } : XmssBase).getSKSeed = ({ o with sk := K.sk j } : XmssBase).getSKSeed ∧
    ({ o with sk := K.sk i } : XmssBase).getSKPRF = ({ o with sk := K.sk j } : XmssBase).getSKPRF ∧
    ({ o with sk := K.sk i } : XmssBase).getExtendedSeed = ({ o with sk := K.sk j } : XmssBase).getExtendedSeed := by
  have h1 : ({ o with sk := K.sk i } : XmssBase).getPK = ({ o with sk := K.sk j } : XmssBase).getPK := by
    rw [getPK_eq K _ i rfl, getPK_eq K _ j rfl]; rfl
  refine ⟨h1, ?_, ?_, ?_, rfl⟩
  · rw [XmssBase.getAddress, XmssBase.getAddress, h1]
  · rw [XmssBase.getSKSeed, XmssBase.getSKSeed, K.seed_slice, K.seed_slice]
  · rw [XmssBase.getSKPRF, XmssBase.getSKPRF, K.prf_slice, K.prf_slice]

/-- C75, refuted for an `XmssFast` without a lock. After any history that leaves an even index or the last one, two threads
each call `sign`; each moves as far as having read the index, then they take turns. Both calls return, both signatures are
honest signatures with the same index, both verify under the object's key, and the index is one further, not two: one
one-time key has signed two messages. -/
theorem C75_fast_race_refuted (S : Sha256) (seed : Bytes) (height : UInt8) (hf : HashFn) (af : Nat) (o0 : XmssFast)
    (hnew : XmssFast.new S seed height hf.toNat af = ok o0) (cs : List Call) (rs : List Reply) (o : XmssFast)
    (hrun : runCalls (XmssFast.call S) o0 cs = some (rs, o)) (i : Nat) (hidx : o.getIndex = ok i)
    (hi : i < 2 ^ height.toNat) (hev : i % 2 = 0 ∨ i = 2 ^ height.toNat - 1) (m1 m2 : Bytes) :
    ∃ s1 s2 pk o', runSchedule (fastStep S) bothRead (fastThreads o [.sign m1, .sign m2]) =
        (o', [.done (.sig s1), .done (.sig s2)]) ∧
      s1 = seedSignature S hf 16 height.toNat seed i m1 ∧ s2 = seedSignature S hf 16 height.toNat seed i m2 ∧
      sigIndex s1 = i ∧ sigIndex s2 = i ∧ o.getPK = ok pk ∧ verify S m1 s1 pk 16 = ok true ∧ verify S m2 s2 pk 16 = ok true ∧
      o'.getIndex = ok (i + 1) := by
  obtain ⟨f, p, k, q, j, hf1, hf2, hg, hs, rfl, e2, e5, hp, H, hj, hgi, _, _, rfl⟩ := fast_reach hnew hrun
  rw [ofNat?_toNat] at hf2
  cases hf2
  rw [hidx] at hgi
  cases hgi
  have hlt := H.pow_lt
  obtain ⟨st, e⟩ := H.race_both i hi hev m1 m2
  obtain ⟨pk, v0, v1⟩ := verify_honest S hf (w := 16) (by omega) _ (fastAt S hf _ o0 i).toXmssBase i rfl H.hof H.hh H.hroot i hi m1
  obtain ⟨pk', v2, v3⟩ := verify_honest S hf (w := 16) (by omega) _ (fastAt S hf _ o0 i).toXmssBase i rfl H.hof H.hh H.hroot i hi m2
  rw [v0] at v2
  cases v2
  refine ⟨_, _, pk, _, e, rfl, rfl, sigIndex_signature S hf 16 _ _ _ _ i m1 (by omega),
    sigIndex_signature S hf 16 _ _ _ _ i m2 (by omega), v0, v1, v3, ?_⟩
  exact KeyParts.getIndex _ _ (i + 1) rfl (by omega)

/-- C75. One preemption is enough. The first call is stopped in `setIndex(getIndex())`, between the check and the writing of
the index; the second call runs from beginning to end and returns an honest signature; then the first call writes the old
index back, signs with it and returns. Both signatures carry index `i` and the chain values of one-time key `i`. -/
theorem C75_fast_one_preemption (S : Sha256) (seed : Bytes) (height : UInt8) (hf : HashFn) (af : Nat) (o0 : XmssFast)
    (hnew : XmssFast.new S seed height hf.toNat af = ok o0) (cs : List Call) (rs : List Reply) (o : XmssFast)
    (hrun : runCalls (XmssFast.call S) o0 cs = some (rs, o)) (i : Nat) (hidx : o.getIndex = ok i)
    (hi : i < 2 ^ height.toNat) (hev : i % 2 = 0 ∨ i = 2 ^ height.toNat - 1) (m1 m2 : Bytes) :
    ∃ s1 s2 o', runSchedule (fastStep S) oneWaits (fastThreads o [.sign m1, .sign m2]) =
        (o', [.done (.sig s1), .done (.sig s2)]) ∧
      sigIndex s1 = i ∧ s1.take (36 + 32 * 67) = (seedSignature S hf 16 height.toNat seed i m1).take (36 + 32 * 67) ∧
      s2 = seedSignature S hf 16 height.toNat seed i m2 ∧ sigIndex s2 = i ∧ o'.getIndex = ok (i + 1) := by
  obtain ⟨f, p, k, q, j, hf1, hf2, hg, hs, rfl, e2, e5, hp, H, hj, hgi, _, _, rfl⟩ := fast_reach hnew hrun
  rw [ofNat?_toNat] at hf2
  cases hf2
  rw [hidx] at hgi
  cases hgi
  have hlt := H.pow_lt
  obtain ⟨st, rest, hl, e⟩ := H.race_one i hi hev m1 m2
  obtain ⟨t1, t2⟩ := H.parts_take i (by omega) m1 rest
  refine ⟨_, _, _, e, t2, t1, rfl, sigIndex_signature S hf 16 _ _ _ _ i m2 (by omega), ?_⟩
  exact KeyParts.getIndex _ _ (i + 1) rfl (by omega)

/-- C75. At every index that is left, odd ones too. The two threads take turns as above, up to the last step of the second
call, which moves the traversal on a second time: by then the first call has returned its honest signature, the second call
has its honest signature with the same index ready, and the index is one further. The second call then returns just that
signature, or the second move of the traversal has undefined behaviour. It never gets another signature, and never an error. -/
theorem C75_fast_race_every_index (S : Sha256) (seed : Bytes) (height : UInt8) (hf : HashFn) (af : Nat) (o0 : XmssFast)
    (hnew : XmssFast.new S seed height hf.toNat af = ok o0) (cs : List Call) (rs : List Reply) (o : XmssFast)
    (hrun : runCalls (XmssFast.call S) o0 cs = some (rs, o)) (i : Nat) (hidx : o.getIndex = ok i)
    (hi : i < 2 ^ height.toNat) (m1 m2 : Bytes) :
    ∃ s1 s2 a b, ∃ o1 o2 : XmssFast,
      s1 = seedSignature S hf 16 height.toNat seed i m1 ∧ s2 = seedSignature S hf 16 height.toNat seed i m2 ∧
      runSchedule (fastStep S) (bothRead.take 15) (fastThreads o [.sign m1, .sign m2]) =
        (o1, [.done (.sig s1), .round i a s2]) ∧ o1.getIndex = ok (i + 1) ∧
      runSchedule (fastStep S) bothRead (fastThreads o [.sign m1, .sign m2]) = (o2, [.done (.sig s1), b]) ∧
      o2.getIndex = ok (i + 1) ∧ (b = .done (.sig s2) ∨ b = .ub) := by
  obtain ⟨f, p, k, q, j, hf1, hf2, hg, hs, rfl, e2, e5, hp, H, hj, hgi, _, _, rfl⟩ := fast_reach hnew hrun
  rw [ofNat?_toNat] at hf2
  cases hf2
  rw [hidx] at hgi
  cases hgi
  have hlt := H.pow_lt
  obtain ⟨st, b, c, d, e⟩ := H.race_both_any i hi m1 m2
  obtain ⟨st', hr⟩ := H.step_round_any (i + 1) st i ⟨0, 0, 0, 0, i, b, c, d⟩ _ (H.length_sig i m2)
  have hx : ∀ st, (fastObj (keyOf S hf 16 o0.height.toNat (lenW_pos (by omega)) seed) o0 (i + 1) st).getIndex = ok (i + 1) :=
    fun st => KeyParts.getIndex _ _ (i + 1) rfl (by omega)
  have hb : bothRead = bothRead.take 15 ++ [1] := rfl
  rcases hr with hr | hr
  · exact ⟨_, _, _, _, _, _, rfl, rfl, e, hx st, by rw [hb, run_append, e, run_second _ hr]; rfl, hx st', Or.inl rfl⟩
  · exact ⟨_, _, _, _, _, _, rfl, rfl, e, hx st, by rw [hb, run_append, e, run_second _ hr]; rfl, hx st', Or.inr rfl⟩

/-- C75. One preemption, at every index that is left. The second call is whole and returns its honest signature; the first
then has a signature that begins like the honest one with the same index, and returns it or has undefined behaviour in moving
the traversal on a second time. -/
theorem C75_fast_one_preemption_every_index (S : Sha256) (seed : Bytes) (height : UInt8) (hf : HashFn) (af : Nat) (o0 : XmssFast)
    (hnew : XmssFast.new S seed height hf.toNat af = ok o0) (cs : List Call) (rs : List Reply) (o : XmssFast)
    (hrun : runCalls (XmssFast.call S) o0 cs = some (rs, o)) (i : Nat) (hidx : o.getIndex = ok i)
    (hi : i < 2 ^ height.toNat) (m1 m2 : Bytes) :
    ∃ s1 s2 a b, ∃ o1 o2 : XmssFast,
      sigIndex s1 = i ∧ s1.length = 36 + 32 * 67 + 32 * height.toNat ∧
      s1.take (36 + 32 * 67) = (seedSignature S hf 16 height.toNat seed i m1).take (36 + 32 * 67) ∧
      s2 = seedSignature S hf 16 height.toNat seed i m2 ∧
      runSchedule (fastStep S) (oneWaits.take 15) (fastThreads o [.sign m1, .sign m2]) =
        (o1, [.round i a s1, .done (.sig s2)]) ∧ o1.getIndex = ok (i + 1) ∧
      runSchedule (fastStep S) oneWaits (fastThreads o [.sign m1, .sign m2]) = (o2, [b, .done (.sig s2)]) ∧
      o2.getIndex = ok (i + 1) ∧ (b = .done (.sig s1) ∨ b = .ub) := by
  obtain ⟨f, p, k, q, j, hf1, hf2, hg, hs, rfl, e2, e5, hp, H, hj, hgi, _, _, rfl⟩ := fast_reach hnew hrun
  rw [ofNat?_toNat] at hf2
  cases hf2
  rw [hidx] at hgi
  cases hgi
  have hlt := H.pow_lt
  obtain ⟨st, rest, b, c, d, hl, e⟩ := H.race_one_any i hi m1 m2
  have hl2 := H.length_parts i m1
  obtain ⟨t1, t2⟩ := H.parts_take i (by omega) m1 rest
  have hl3 : (sigParts S hf 16 (keyOf S hf 16 o0.height.toNat (lenW_pos (by omega)) seed) i m1 ++ rest).length =
      36 + 32 * lenW 16 + 32 * o0.height.toNat := by rw [List.length_append, hl2, hl]
  obtain ⟨st', hr⟩ := H.step_round_any (i + 1) st i ⟨0, 0, 0, 0, i, b, c, d⟩ _ hl3
  have hx : ∀ st, (fastObj (keyOf S hf 16 o0.height.toNat (lenW_pos (by omega)) seed) o0 (i + 1) st).getIndex = ok (i + 1) :=
    fun st => KeyParts.getIndex _ _ (i + 1) rfl (by omega)
  have hb : oneWaits = oneWaits.take 15 ++ [0] := rfl
  rcases hr with hr | hr
  · exact ⟨_, _, _, _, _, _, t2, hl3, t1, rfl, e, hx st, by rw [hb, run_append, e, run_first _ hr]; rfl, hx st', Or.inl rfl⟩
  · exact ⟨_, _, _, _, _, _, t2, hl3, t1, rfl, e, hx st, by rw [hb, run_append, e, run_first _ hr]; rfl, hx st', Or.inr rfl⟩

/-- C75. The check against the end of the key is not enough either. One signature is left; the first call is stopped after its
check; the second takes the last signature; the first goes on and returns a signature with index `2^height`, of a one-time
key that is not in the tree. The index becomes `2^height + 1` and `getRemainingSignatures()` returns `2^32 - 1`. -/
theorem C75_fast_past_end (S : Sha256) (seed : Bytes) (height : UInt8) (hf : HashFn) (af : Nat) (o0 : XmssFast)
    (hnew : XmssFast.new S seed height hf.toNat af = ok o0) (cs : List Call) (rs : List Reply) (o : XmssFast)
    (hrun : runCalls (XmssFast.call S) o0 cs = some (rs, o)) (hlast : o.getRemainingSignatures = ok 1) (m1 m2 : Bytes) :
    ∃ s1 s2 o', runSchedule (fastStep S) lastTwice (fastThreads o [.sign m1, .sign m2]) =
        (o', [.done (.sig s1), .done (.sig s2)]) ∧
      s2 = seedSignature S hf 16 height.toNat seed (2 ^ height.toNat - 1) m2 ∧ sigIndex s1 = 2 ^ height.toNat ∧
      o'.getIndex = ok (2 ^ height.toNat + 1) ∧ o'.getRemainingSignatures = ok (2 ^ 32 - 1) := by
  obtain ⟨f, p, k, q, j, hf1, hf2, hg, hs, rfl, e2, e5, hp, H, hj, hgi, _, _, rfl⟩ := fast_reach hnew hrun
  rw [ofNat?_toNat] at hf2
  cases hf2
  have hlt := H.pow_lt
  have h30 := H.hh.2.1
  have hle : 2 ^ o0.height.toNat ≤ 2 ^ 30 := Nat.pow_le_pow_right (by omega) h30
  have hpos := Nat.two_pow_pos o0.height.toNat
  generalize hK : keyOf S hf 16 o0.height.toNat (lenW_pos (by omega)) seed = K at *
  have hrem : ∀ (n : Nat) (st : BdsState), n < 2 ^ 32 → (fastObj K o0 n st).getRemainingSignatures =
      ok ((2 ^ o0.height.toNat + 2 ^ 32 - n) % 2 ^ 32) := by
    intro n st hn
    rw [XmssBase.getRemainingSignatures, XmssBase.getNumberSignatures,
      show (fastObj K o0 n st).height = o0.height from rfl, if_neg (by omega), ok_bind, K.getIndex _ n rfl hn, ok_bind, sub32,
      Nat.mod_eq_of_lt hn]
  rw [fastAt_obj, hrem j _ (by omega)] at hlast
  have hj1 : j = 2 ^ o0.height.toNat - 1 := by
    injection hlast with hlast
    omega
  subst hj1
  obtain ⟨st, rest, hl, e⟩ := H.race_last m1 m2
  obtain ⟨t1, t2⟩ := H.parts_take (2 ^ o0.height.toNat) (by omega) m1 rest
  refine ⟨_, _, _, e, by subst hK; rfl, t2, K.getIndex _ (2 ^ o0.height.toNat + 1) rfl (by omega), ?_⟩
  rw [hrem _ st (by omega)]
  congr 1
  omega

/-- C75. What does hold of every schedule of any calls by any number of threads, without a lock: the public key, the address,
the extended seed and the secret seeds stay the same, and every signature returned has the right length, and its index,
randomiser and chain values (all but the authentication path) are those of the honest signature of the caller's message with
the index it carries. -/
theorem C75_fast_any_schedule (S : Sha256) (seed : Bytes) (height : UInt8) (hf : HashFn) (af : Nat) (o0 : XmssFast)
    (hnew : XmssFast.new S seed height hf.toNat af = ok o0) (cs : List Call) (rs : List Reply) (o : XmssFast)
    (hrun : runCalls (XmssFast.call S) o0 cs = some (rs, o)) (calls : List Call) (sched : List Nat) (o' : XmssFast)
    (pcs : List FastPc) (h : runSchedule (fastStep S) sched (fastThreads o calls) = (o', pcs)) :
    o'.getPK = o0.getPK ∧ o'.getAddress S = o0.getAddress S ∧ o'.getSKSeed = o0.getSKSeed ∧ o'.getSKPRF = o0.getSKPRF ∧
      o'.getExtendedSeed = o0.getExtendedSeed ∧
      ∀ (t : Nat) s, pcs[t]? = some (.done (.sig s)) → ∃ m, calls[t]? = some (.sign m) ∧
        s.length = 36 + 32 * 67 + 32 * height.toNat ∧
        s.take (36 + 32 * 67) = (seedSignature S hf 16 height.toNat seed (sigIndex s) m).take (36 + 32 * 67) := by
  obtain ⟨f, p, k, q, j, hf1, hf2, hg, hs, rfl, e2, e5, hp, H, hj, hgi, _, _, rfl⟩ := fast_reach hnew hrun
  rw [ofNat?_toNat] at hf2
  cases hf2
  have hlt := H.pow_lt
  rw [fastAt_obj] at h
  obtain ⟨j', st', pcs', e, hj', hall⟩ := H.any_run calls sched j (stAt S hf o0.params _ _ o0.state (min j (2 ^ o0.height.toNat - 1)))
    (calls.map .start) (by omega) (by
      intro t pc ht
      rw [List.getElem?_map] at ht
      cases hc : calls[t]? with
      | none => rw [hc] at ht; cases ht
      | some c => rw [hc] at ht; cases ht; exact ⟨c, rfl, rfl⟩)
  rw [show fastThreads _ calls = (_, calls.map FastPc.start) from rfl, e] at h
  cases h
  obtain ⟨g1, g2, g3, g4, g5⟩ := obj_getters S (keyOf S hf 16 o0.height.toNat (lenW_pos (by omega)) seed) o0.toXmssBase j' 0
  have hb : ({ o0.toXmssBase with sk := (keyOf S hf 16 o0.height.toNat (lenW_pos (by omega)) seed).sk 0 } : XmssBase) =
      o0.toXmssBase := by
    rw [← H.hsk]
  rw [hb] at g1 g2 g3 g4 g5
  refine ⟨g1, g2, g3, g4, g5, ?_⟩
  intro t s ht
  obtain ⟨c, hc, m, idx, rest, rfl, h2, rfl, h4⟩ := hall t _ ht
  obtain ⟨t1, t2⟩ := H.parts_take idx (by omega) m rest
  rw [show lenW 16 = 67 by decide] at h4
  exact ⟨m, hc, h4, by rw [t2]; exact t1⟩

/-- C75, refuted for an `XmssBasic` without a lock: at every index. -/
theorem C75_basic_race_refuted (S : Sha256) (seed : Bytes) (height : UInt8) (hf : HashFn) (af w : Nat)
    (hw : w = 2 ∨ w = 4 ∨ w = 16 ∨ w = 256) (hh : GoodHeight height) (h24 : height.toNat ≤ 24) (o0 : XmssBase)
    (hnew : XmssBasic.new S seed height hf.toNat af w = ok o0) (cs : List Call) (rs : List Reply) (o : XmssBase)
    (hrun : runCalls (XmssBasic.call S) o0 cs = some (rs, o)) (i : Nat) (hidx : o.getIndex = ok i)
    (hi : i < 2 ^ height.toNat) (m1 m2 : Bytes) :
    ∃ s1 s2 pk o', runSchedule (basicStep S) [0, 1, 0, 1, 0, 1] (basicThreads o [.sign m1, .sign m2]) =
        (o', [.done (.sig s1), .done (.sig s2)]) ∧
      s1 = seedSignature S hf w height.toNat seed i m1 ∧ s2 = seedSignature S hf w height.toNat seed i m2 ∧
      sigIndex s1 = i ∧ sigIndex s2 = i ∧ o.getPK = ok pk ∧ verify S m1 s1 pk w = ok true ∧ verify S m2 s2 pk w = ok true ∧
      o'.getIndex = ok (i + 1) := by
  obtain ⟨p, k, q, j, H, hj, rfl, rfl⟩ := basic_canon S seed height hf af w hw hh h24 o0 hnew cs rs o hrun
  have hlt := H.pow_lt
  rw [show (basicAt (keyOf S hf w o0.height.toNat (lenW_pos hw) seed) o0 j).getIndex = ok j from
    KeyParts.getIndex _ _ j rfl hj] at hidx
  cases hidx
  have e := H.race i hi m1 m2
  obtain ⟨pk, v0, v1⟩ := verify_honest S hf hw _ (basicAt (keyOf S hf w o0.height.toNat (lenW_pos hw) seed) o0 i) i rfl H.hof hh
    H.hroot i hi m1
  obtain ⟨pk', v2, v3⟩ := verify_honest S hf hw _ (basicAt (keyOf S hf w o0.height.toNat (lenW_pos hw) seed) o0 i) i rfl H.hof hh
    H.hroot i hi m2
  rw [v0] at v2
  cases v2
  refine ⟨_, _, pk, _, e, rfl, rfl, sigIndex_signature S hf w _ _ _ _ i m1 (by omega),
    sigIndex_signature S hf w _ _ _ _ i m2 (by omega), v0, v1, v3, ?_⟩
  exact KeyParts.getIndex _ _ (i + 1) rfl (by omega)

/-- C75. What does hold of every schedule of calls of `sign` on an `XmssBasic` with enough signatures left, without a lock: no
call has undefined behaviour, and every signature returned is an honest signature of the caller's message, with an index
between the first one and the number of calls further, and verifies. (The index may be one another call used too.) -/
theorem C75_basic_any_schedule (S : Sha256) (seed : Bytes) (height : UInt8) (hf : HashFn) (af w : Nat)
    (hw : w = 2 ∨ w = 4 ∨ w = 16 ∨ w = 256) (hh : GoodHeight height) (h24 : height.toNat ≤ 24) (o0 : XmssBase)
    (hnew : XmssBasic.new S seed height hf.toNat af w = ok o0) (pk : Bytes) (hpk : o0.getPK = ok pk)
    (cs : List Call) (rs : List Reply) (o : XmssBase)
    (hrun : runCalls (XmssBasic.call S) o0 cs = some (rs, o)) (i : Nat) (hidx : o.getIndex = ok i)
    (msgs : List Bytes) (hi : i + msgs.length ≤ 2 ^ height.toNat) (sched : List Nat) (o' : XmssBase) (pcs : List BasicPc)
    (h : runSchedule (basicStep S) sched (basicThreads o (msgs.map .sign)) = (o', pcs)) :
    o'.getPK = ok pk ∧ (∃ i', o'.getIndex = ok i' ∧ i ≤ i' ∧ i' ≤ i + msgs.length) ∧ (∀ t : Nat, pcs[t]? ≠ some .ub) ∧
      ∀ (t : Nat) r, pcs[t]? = some (.done r) → ∃ m idx, msgs[t]? = some m ∧ i ≤ idx ∧ idx < i + msgs.length ∧
        r = .sig (seedSignature S hf w height.toNat seed idx m) ∧
        verify S m (seedSignature S hf w height.toNat seed idx m) pk w = ok true := by
  obtain ⟨p, k, q, j, H, hj, rfl, rfl⟩ := basic_canon S seed height hf af w hw hh h24 o0 hnew cs rs o hrun
  have hpk0 : o0.getPK = (basicAt (keyOf S hf w o0.height.toNat (lenW_pos hw) seed) o0 0).getPK := by
    obtain ⟨p', k', q', j0, H0, hj0, e, _⟩ := basic_canon S seed o0.height hf af w hw hh h24 o0 hnew [] [] o0 rfl
    have := (obj_getters S (keyOf S hf w o0.height.toNat (lenW_pos hw) seed) o0 j0 0).1
    rw [show ({ o0 with sk := (keyOf S hf w o0.height.toNat (lenW_pos hw) seed).sk j0 } : XmssBase) = o0 from e.symm] at this
    exact this
  have hlt := H.pow_lt
  rw [show (basicAt (keyOf S hf w o0.height.toNat (lenW_pos hw) seed) o0 j).getIndex = ok j from
    KeyParts.getIndex _ _ j rfl hj] at hidx
  cases hidx
  have hc0 : ((msgs.map Call.sign).map BasicPc.start).countP wrote = 0 := by
    rw [List.countP_eq_zero]
    intro x hx
    obtain ⟨c, _, rfl⟩ := List.mem_map.mp hx
    simp [wrote]
  obtain ⟨j', pcs', e, hl, k1, k2, hall⟩ := H.any_run msgs i hi sched i ((msgs.map Call.sign).map BasicPc.start) (by simp)
    (Nat.le_refl _) (by omega) (by
      intro t pc ht
      rw [List.getElem?_map, List.getElem?_map] at ht
      cases hc : msgs[t]? with
      | none => rw [hc] at ht; cases ht
      | some c => rw [hc] at ht; cases ht; exact ⟨c, rfl, rfl⟩)
  rw [show basicThreads _ (msgs.map Call.sign) = (_, (msgs.map Call.sign).map BasicPc.start) from rfl, e] at h
  cases h
  have hpk2 : ∀ n, (basicAt (keyOf S hf w o0.height.toNat (lenW_pos hw) seed) o0 n).getPK = ok pk := by
    intro n
    rw [← hpk, hpk0]
    exact (obj_getters S _ o0 n 0).1
  refine ⟨hpk2 j', ⟨j', KeyParts.getIndex _ _ j' rfl (by omega), k1, k2⟩, ?_, ?_⟩
  · intro t ht
    obtain ⟨m, _, hb⟩ := hall t _ ht
    exact hb
  · intro t r ht
    obtain ⟨m, hm, idx, a1, a2, rfl⟩ := hall t _ ht
    obtain ⟨pk', v0, v1⟩ := verify_honest S hf hw _ (basicAt (keyOf S hf w o0.height.toNat (lenW_pos hw) seed) o0 0) 0 rfl H.hof hh
      H.hroot idx (show idx < 2 ^ o0.height.toNat by omega) m
    rw [hpk2 0] at v0
    cases v0
    exact ⟨m, idx, hm, a1, a2, rfl, v1⟩

/-- C75. The consequence: two calls in any schedule whose signatures carry the same index, the first of them whole (as in the
races above). Whoever sees the two has an accepted signature of every message whose chain positions they cover (C70). -/
theorem C75_race_forgery (S : Sha256) (seed : Bytes) (height : UInt8) (hf : HashFn) (af : Nat) (o0 : XmssFast)
    (hnew : XmssFast.new S seed height hf.toNat af = ok o0) (pk : Bytes) (hpk : o0.getPK = ok pk)
    (cs : List Call) (rs : List Reply) (o : XmssFast)
    (hrun : runCalls (XmssFast.call S) o0 cs = some (rs, o)) (calls : List Call) (sched : List Nat) (o' : XmssFast)
    (pcs : List FastPc) (h : runSchedule (fastStep S) sched (fastThreads o calls) = (o', pcs))
    (t1 t2 : Nat) (m1 m2 s1 s2 : Bytes) (c1 : calls[t1]? = some (.sign m1)) (c2 : calls[t2]? = some (.sign m2))
    (r1 : pcs[t1]? = some (.done (.sig s1))) (r2 : pcs[t2]? = some (.done (.sig s2))) (hsame : sigIndex s1 = sigIndex s2)
    (hin : sigIndex s1 < 2 ^ height.toNat) (hone : s1 = seedSignature S hf 16 height.toNat seed (sigIndex s1) m1) (msg : Bytes)
    (hc : Covered (hf.prim S) 16 (keyRoot pk) [(m1, s1), (m2, s2)] msg s1) :
    verify S msg (spliceForward (hf.prim S) 16 (keyRoot pk) (keySeed pk) [(m1, s1), (m2, s2)] msg s1) pk 16 = ok true := by
  obtain ⟨_, _, _, _, _, hall⟩ := C75_fast_any_schedule S seed height hf af o0 hnew cs rs o hrun calls sched o' pcs h
  obtain ⟨m1', d1, _, e1⟩ := hall t1 s1 r1
  obtain ⟨m2', d2, _, e2⟩ := hall t2 s2 r2
  rw [c1] at d1
  cases d1
  rw [c2] at d2
  cases d2
  obtain ⟨hs, hg, f, hf1, hf2, rfl, g2, g3, g4, p, k, q, hp, g5, HH⟩ := fast_fresh hnew
  rw [ofNat?_toNat] at hf2
  cases hf2
  have hlt := HH.pow_lt
  have hpk' := getPK_eq _ o0.toXmssBase 0 HH.hsk
  have e := hpk
  rw [hpk'] at e
  cases e
  obtain ⟨f1, f2, f3, f4, f5⟩ := pk_fields (keyOf S hf 16 o0.height.toNat (lenW_pos (by omega)) seed) o0.toXmssBase hf g2 hg
  generalize hix : sigIndex s1 = i at *
  rw [← hsame] at e2
  obtain ⟨pk', v1, v2⟩ := verify_honest S hf (w := 16) (by omega) (keyOf S hf 16 o0.height.toNat (lenW_pos (by omega)) seed)
    o0.toXmssBase 0 HH.hsk HH.hof HH.hh HH.hroot i hin m1
  rw [hpk'] at v1
  cases v1
  have h67 : lenW 16 = 67 := by decide
  subst hone
  refine C70_reuse_forges S hf 16 (by omega) o0.height.toNat seed _ (by rw [f2, ofNat?_toNat]) f5 (f4.trans HH.hroot) i (by omega) m1 v2
    _ ?_ msg hc
  intro x hx
  rcases List.mem_cons.mp hx with rfl | hx
  · rfl
  · obtain rfl := List.mem_singleton.mp hx
    rw [h67]
    exact e2

/-- Races for real objects: at index 0, at index 2 after a history, and at the last index. -/
theorem fast_race_demo (S : Sha256) (hS : ∀ b, S.hash b = List.replicate 31 7 ++ [UInt8.ofNat b.length]) (seed : Bytes)
    (height : UInt8) (af : Nat) (o0 : XmssFast) (hnew : XmssFast.new S seed height (HashFn.toNat .sha2_256) af = ok o0) :
    ∃ s1 s2 pk o', o0.getPK = ok pk ∧
      runSchedule (fastStep S) bothRead (fastThreads o0 [.sign (List.replicate 143 0), .sign (List.replicate 112 0)]) =
        (o', [.done (.sig s1), .done (.sig s2)]) ∧ sigIndex s1 = sigIndex s2 ∧
      verify S (List.replicate 158 0) (spliceForward (HashFn.prim S .sha2_256) 16 (keyRoot pk) (keySeed pk)
        [(List.replicate 143 0, s1), (List.replicate 112 0, s2)] (List.replicate 158 0) s1) pk 16 = ok true := by
  obtain ⟨hs, hg, f, hf1, hf2, rfl, e2, e3, e4, p, k, q, hp, e5, HH⟩ := fast_fresh hnew
  rw [ofNat?_toNat] at hf2
  cases hf2
  have h0 : o0.getIndex = ok 0 := KeyParts.getIndex _ _ 0 HH.hsk (by omega)
  obtain ⟨s1, s2, pk, o', a1, a2, a3, a4, a5, a6, a7, a8, a9⟩ := C75_fast_race_refuted S seed o0.height .sha2_256 af o0 hnew
    [] [] o0 rfl 0 h0 (Nat.two_pow_pos _) (Or.inl rfl) (List.replicate 143 0) (List.replicate 112 0)
  have hlen : ∀ m, 36 ≤ (seedSignature S .sha2_256 16 o0.height.toNat seed 0 m).length := by
    intro m
    have := length_signature S .sha2_256 HH.hp HH.hlen o0.height.toNat ((shake256 96 seed).take 32)
      (((shake256 96 seed).drop 32).take 32) ((shake256 96 seed).drop 64) 0 m
    rw [seedSignature, this]; omega
  refine ⟨s1, s2, pk, o', a6, a1, a4.trans a5.symm, ?_⟩
  refine C75_race_forgery S seed o0.height .sha2_256 af o0 hnew pk a6 [] [] o0 rfl _ bothRead o' _ a1 0 1 _ _ s1 s2 rfl rfl rfl rfl
    (a4.trans a5.symm) (by rw [a4]; exact Nat.two_pow_pos _) (by rw [a4]; exact a2) _
    (toy_covered S hS _ _ _ ?_ (by rw [a2]; exact hlen _) (by rw [a3]; exact hlen _))
  obtain ⟨f1, f2, f3, f4, f5⟩ := pk_fields (keyOf S .sha2_256 16 o0.height.toNat (lenW_pos (by omega)) seed) o0.toXmssBase
    .sha2_256 e2 hg
  rw [getPK_eq _ o0.toXmssBase 0 HH.hsk] at a6
  cases a6
  rw [f4]; exact KeyParts.l4 _

example : ∃ o0 s1 s2 pk o', XmssFast.new toySha zeroSeed 4 0 0 = ok o0 ∧ o0.getPK = ok pk ∧
    runSchedule (fastStep toySha) bothRead (fastThreads o0 [.sign (List.replicate 143 0), .sign (List.replicate 112 0)]) =
      (o', [.done (.sig s1), .done (.sig s2)]) ∧ sigIndex s1 = sigIndex s2 ∧
    verify toySha (List.replicate 158 0) (spliceForward (HashFn.prim toySha .sha2_256) 16 (keyRoot pk) (keySeed pk)
      [(List.replicate 143 0, s1), (List.replicate 112 0, s2)] (List.replicate 158 0) s1) pk 16 = ok true := by
  obtain ⟨o0, h⟩ := (C39_fast_succeeds toySha zeroSeed 4 (HashFn.toNat .sha2_256) 0).mpr ⟨rfl, goodHeight4, by decide⟩
  obtain ⟨s1, s2, pk, o', h1, h2, h3, h4⟩ := fast_race_demo toySha (fun _ => rfl) zeroSeed 4 0 o0 h
  exact ⟨o0, s1, s2, pk, o', h, h1, h2, h3, h4⟩

/-- One preemption, at index 2 after a history; the last signature, taken twice. -/
example : ∃ o0 rs o s1 s2 o', XmssFast.new toySha zeroSeed 4 1 0 = ok o0 ∧
    runCalls (XmssFast.call toySha) o0 [.sign [7], .setIndex 2] = some (rs, o) ∧
    runSchedule (fastStep toySha) oneWaits (fastThreads o [.sign [1], .sign [2]]) = (o', [.done (.sig s1), .done (.sig s2)]) ∧
    sigIndex s1 = 2 ∧ sigIndex s2 = 2 := by
  obtain ⟨o0, h⟩ := (C39_fast_succeeds toySha zeroSeed 4 1 0).mpr ⟨rfl, goodHeight4, by omega⟩
  obtain ⟨o, h1, h2⟩ := C19_fast_refines_counter toySha zeroSeed 4 .shake_128 0 o0 h [.sign [7], .setIndex 2]
  obtain ⟨s1, s2, o', a1, a2, a3, a4, a5, a6⟩ := C75_fast_one_preemption toySha zeroSeed 4 .shake_128 0 o0 h _ _ o h1 2 h2
    (by decide) (by decide) [1] [2]
  exact ⟨o0, _, o, s1, s2, o', h, h1, a1, a2, a5⟩

example : ∃ o0 rs o s1 s2 o', XmssFast.new toySha zeroSeed 4 1 0 = ok o0 ∧
    runCalls (XmssFast.call toySha) o0 [.setIndex 15] = some (rs, o) ∧
    runSchedule (fastStep toySha) lastTwice (fastThreads o [.sign [1], .sign [2]]) = (o', [.done (.sig s1), .done (.sig s2)]) ∧
    sigIndex s1 = 16 ∧ o'.getIndex = ok 17 := by
  obtain ⟨o0, h⟩ := (C39_fast_succeeds toySha zeroSeed 4 1 0).mpr ⟨rfl, goodHeight4, by omega⟩
  obtain ⟨o, h1, h2⟩ := C19_fast_refines_counter toySha zeroSeed 4 .shake_128 0 o0 h [.setIndex 15]
  obtain ⟨i, g1, g2, g3, _⟩ := C17_fast_exhaustion toySha zeroSeed 4 1 0 o0 h _ _ o h1
  rw [h2] at g1
  cases g1
  obtain ⟨s1, s2, o', a1, a2, a3, a4, a5⟩ := C75_fast_past_end toySha zeroSeed 4 .shake_128 0 o0 h _ _ o h1 g3 [1] [2]
  exact ⟨o0, _, o, s1, s2, o', h, h1, a1, a3, a4⟩

/-- The race at the odd index 3, after a history. -/
example : ∃ o0 rs o s1 s2 a o', XmssFast.new toySha zeroSeed 4 1 0 = ok o0 ∧
    runCalls (XmssFast.call toySha) o0 [.sign [7], .setIndex 3] = some (rs, o) ∧
    runSchedule (fastStep toySha) (bothRead.take 15) (fastThreads o [.sign [1], .sign [2]]) =
      (o', [.done (.sig s1), .round 3 a s2]) ∧ o'.getIndex = ok 4 := by
  obtain ⟨o0, h⟩ := (C39_fast_succeeds toySha zeroSeed 4 1 0).mpr ⟨rfl, goodHeight4, by omega⟩
  obtain ⟨o, h1, h2⟩ := C19_fast_refines_counter toySha zeroSeed 4 .shake_128 0 o0 h [.sign [7], .setIndex 3]
  obtain ⟨s1, s2, a, b, o1, o2, a1, a2, a3, a4, _⟩ := C75_fast_race_every_index toySha zeroSeed 4 .shake_128 0 o0 h _ _ o h1 3 h2
    (by decide) [1] [2]
  exact ⟨o0, _, o, s1, s2, a, o1, h, h1, a3, a4⟩

example : ∃ o0 rs o s1 s2 a o', XmssFast.new toySha zeroSeed 4 1 0 = ok o0 ∧
    runCalls (XmssFast.call toySha) o0 [.sign [7], .setIndex 3] = some (rs, o) ∧
    runSchedule (fastStep toySha) (oneWaits.take 15) (fastThreads o [.sign [1], .sign [2]]) =
      (o', [.round 3 a s1, .done (.sig s2)]) ∧ sigIndex s1 = 3 := by
  obtain ⟨o0, h⟩ := (C39_fast_succeeds toySha zeroSeed 4 1 0).mpr ⟨rfl, goodHeight4, by omega⟩
  obtain ⟨o, h1, h2⟩ := C19_fast_refines_counter toySha zeroSeed 4 .shake_128 0 o0 h [.sign [7], .setIndex 3]
  obtain ⟨s1, s2, a, b, o1, o2, a0, _, a1, a2, a3, a4, _⟩ := C75_fast_one_preemption_every_index toySha zeroSeed 4 .shake_128 0 o0 h
    _ _ o h1 3 h2 (by decide) [1] [2]
  exact ⟨o0, _, o, s1, s2, a, o1, h, h1, a3, a0⟩

/-- Schedules under a lock, which take the calls in another order than they are listed in. -/
theorem exclusive_demo (S : Sha256) (o : XmssFast) (m1 : Bytes) (n : UInt32)
    (h : ∃ r, (iterStep (fastStep S) 8 (o, .start (.setIndex n))).2 = .done r) :
    Exclusive (fastStep S) fastIdle (List.replicate 8 1 ++ List.replicate 8 0) (fastThreads o [.sign m1, .setIndex n]) := by
  have key1 : ∀ (k : Nat) (o : XmssFast) (a b : FastPc) (ts : List Nat), fastIdle a →
      Exclusive (fastStep S) fastIdle ts ((iterStep (fastStep S) k (o, b)).1, [a, (iterStep (fastStep S) k (o, b)).2]) →
      Exclusive (fastStep S) fastIdle (List.replicate k 1 ++ ts) (o, [a, b]) := by
    intro k
    induction k with
    | zero => intro o a b ts _ h; exact h
    | succ k ih =>
      intro o a b ts ha h
      rw [List.replicate_succ, List.cons_append, Exclusive]
      refine ⟨?_, ih _ _ _ _ ha h⟩
      intro u pc hu hg
      match u with
      | 0 => cases hg; exact ha
      | 1 => exact absurd rfl hu
      | u + 2 => cases hg
  have key0 : ∀ (k : Nat) (o : XmssFast) (a b : FastPc), fastIdle b →
      Exclusive (fastStep S) fastIdle (List.replicate k 0) (o, [a, b]) := by
    intro k
    induction k with
    | zero => intro o a b _; exact trivial
    | succ k ih =>
      intro o a b hb
      rw [List.replicate_succ, Exclusive]
      refine ⟨?_, ih _ _ _ hb⟩
      intro u pc hu hg
      match u with
      | 0 => exact absurd rfl hu
      | 1 => cases hg; exact hb
      | u + 2 => cases hg
  refine key1 8 o _ _ _ trivial ?_
  obtain ⟨r, hr⟩ := h
  rw [hr]
  exact key0 8 _ _ _ trivial

example : ∃ o0, XmssFast.new toySha zeroSeed 4 1 0 = ok o0 ∧
    Exclusive (fastStep toySha) fastIdle (List.replicate 8 1 ++ List.replicate 8 0) (fastThreads o0 [.sign [1], .setIndex 5]) := by
  obtain ⟨o0, h⟩ := (C39_fast_succeeds toySha zeroSeed 4 1 0).mpr ⟨rfl, goodHeight4, by omega⟩
  refine ⟨o0, h, exclusive_demo _ _ _ _ ?_⟩
  obtain ⟨f, p, k, q, j, hf1, hf2, hg, hs, e1, e2, e5, hp, H, hj, hgi, _, _, e⟩ := fast_reach h (cs := []) rfl
  rw [← e1] at hj
  obtain ⟨r, o', _, e3⟩ := fastCall_alone H j hj (.setIndex 5)
  exact ⟨r, by rw [e, e3]⟩

/-- The race of an `XmssBasic`, and a schedule of three calls of which one has not ended. -/
example : ∃ o0 s1 s2 o', XmssBasic.new toySha zeroSeed 4 1 0 16 = ok o0 ∧
    runSchedule (basicStep toySha) [0, 1, 0, 1, 0, 1] (basicThreads o0 [.sign [1], .sign [2]]) =
      (o', [.done (.sig s1), .done (.sig s2)]) ∧ sigIndex s1 = 0 ∧ sigIndex s2 = 0 := by
  obtain ⟨o0, rs, o, s1, s2, h1, h2, _⟩ := C18_basic_reuse_refuted toySha zeroSeed 4 .shake_128 0 16 (by decide)
    (by decide) goodHeight4 (by decide) [1] [2]
  have hr := C18_basic_refines toySha zeroSeed 4 .shake_128 0 16 (by decide) goodHeight4 (by decide) o0 h1 []
  obtain ⟨o2, e1, e2⟩ := hr
  cases e1
  obtain ⟨s1, s2, pk, o', a1, a2, a3, a4, a5, _⟩ := C75_basic_race_refuted toySha zeroSeed 4 .shake_128 0 16 (by decide) goodHeight4
    (by decide) o0 h1 [] [] o0 rfl 0 e2 (by decide) [1] [2]
  exact ⟨o0, s1, s2, o', h1, a1, a4, a5⟩

example : ∃ o0 o' pcs, XmssBasic.new toySha zeroSeed 4 1 0 16 = ok o0 ∧
    runSchedule (basicStep toySha) [2, 0, 2, 1, 1, 2, 0] (basicThreads o0 ([[1], [2], [3]].map .sign)) = (o', pcs) ∧
    ∀ t : Nat, pcs[t]? ≠ some .ub := by
  obtain ⟨o0, rs, o, s1, s2, h1, h2, _⟩ := C18_basic_reuse_refuted toySha zeroSeed 4 .shake_128 0 16 (by decide)
    (by decide) goodHeight4 (by decide) [1] [2]
  obtain ⟨o2, e1, e2⟩ := C18_basic_refines toySha zeroSeed 4 .shake_128 0 16 (by decide) goodHeight4 (by decide) o0 h1 []
  cases e1
  obtain ⟨p, k, q, i, H, hi, e, _⟩ := basic_canon toySha zeroSeed 4 .shake_128 0 16 (by decide) goodHeight4 (by decide) o0 h1 [] [] o0 rfl
  have hpk := getPK_eq _ o0 i (by rw [e]; rfl)
  generalize hr : runSchedule (basicStep toySha) [2, 0, 2, 1, 1, 2, 0] (basicThreads o0 ([[1], [2], [3]].map .sign)) = x
  obtain ⟨o', pcs⟩ := x
  exact ⟨o0, o', pcs, h1, hr, (C75_basic_any_schedule toySha zeroSeed 4 .shake_128 0 16 (by decide) goodHeight4 (by decide) o0 h1 _ hpk
    [] [] o0 rfl 0 e2 [[1], [2], [3]] (by decide) _ o' pcs hr).2.2.1⟩

end Qrl.Props
