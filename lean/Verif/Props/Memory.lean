import Verif.Proof.Memory
import Verif.Props.Threads
/-!
# C82: running out of memory
-/

namespace Qrl.Props

open Outcome Spec

section
variable {S : Sha256} {hf : HashFn} {w : Nat} {K : KeyParts} {p : WotsParams} {k q : Nat} {o0 : XmssFast}
variable (H : FastOk S hf w K p k q o0)
include H

theorem FastOk.callMem (i : Nat) (hi : i ≤ 2 ^ o0.height.toNat) (c : MemCall) :
    XmssFast.callMem S (fastAt S hf K o0 i) c =
      some ((memCounterCall (2 ^ o0.height.toNat)
          (signature (hf.prim S) w o0.height.toNat K.skSeed K.skPrf K.ps) i c).1,
        fastAt S hf K o0 (memCounterCall (2 ^ o0.height.toNat)
          (signature (hf.prim S) w o0.height.toNat K.skSeed K.skPrf K.ps) i c).2) := by
  obtain ⟨call, fail⟩ := c
  cases call with
  | setIndex n =>
    have h := H.call i hi (.setIndex n)
    rw [XmssFast.call] at h
    rw [XmssFast.callMem, memCounterCall]
    simp only
    cases hs : (fastAt S hf K o0 i).setIndex S n.toNat with
    | ret a o => rw [hs] at h; simp only [Option.some.injEq, Prod.mk.injEq] at h ⊢; exact ⟨by rw [h.1], h.2⟩
    | raise e o => rw [hs] at h; simp only [Option.some.injEq, Prod.mk.injEq] at h ⊢; exact ⟨by rw [h.1], h.2⟩
    | ub => rw [hs] at h; cases h
  | sign m =>
    have e2 : (fastAt S hf K o0 i).toXmssBase.params.wots.w = w := by
      show o0.params.wots.w = w
      rw [H.hop]; exact H.hp.pw
    have h := H.call i hi (.sign m)
    rw [XmssFast.call, XmssFast.sign, e2, C22_signature_size _ w H.hw, H.getIndex i hi] at h
    simp only at h
    rw [XmssFast.callMem, memCounterCall]
    simp only
    rw [XmssFast.signMem, e2, C22_signature_size _ w H.hw]
    simp only
    by_cases h0 : fail = some 0
    · rw [if_pos h0, if_pos (Or.inl h0)]
    · rw [if_neg h0, H.getIndex i hi]
      simp only
      by_cases hlt : i < 2 ^ o0.height.toNat
      · rw [H.setIndex_ok i i (Nat.le_refl _) hlt] at h ⊢
        simp only at h ⊢
        by_cases h1 : fail = some 1
        · rw [if_pos h1, if_pos (Or.inr ⟨h1, hlt⟩)]
        · rw [if_neg h1, if_neg (by rintro (hc | hc); exacts [h0 hc, h1 hc.1])]
          cases hs : (withHash (fastAt S hf K o0 i).hashFunction fun hf_1 => do
              let (data, (sk, st)) ← xmssfastSignmsg S hf_1 (fastAt S hf K o0 i).params (fastAt S hf K o0 i).sk
                (fastAt S hf K o0 i).state m
              let sig ← fillBuffer (4 + 32 + 32 * lenW w + 32 * (fastAt S hf K o0 i).height.toNat) data
              ok (sig, ({ fastAt S hf K o0 i with sk := sk, state := st } : XmssFast))) with
          | ok r =>
            obtain ⟨sig, o⟩ := r
            rw [hs] at h
            simp only [Step.ofOutcome, MemStep.ofStep, Option.some.injEq, Prod.mk.injEq] at h ⊢
            exact ⟨by rw [h.1], h.2⟩
          | throw e =>
            rw [hs] at h
            simp only [Step.ofOutcome, MemStep.ofStep, Option.some.injEq, Prod.mk.injEq] at h ⊢
            exact ⟨by rw [h.1], h.2⟩
          | ub => rw [hs] at h; cases h
      · rw [H.setIndex_throw i i hi (Or.inl (by omega))] at h ⊢
        simp only at h ⊢
        rw [if_neg (by rintro (hc | hc); exacts [h0 hc, hlt hc.2])]
        simp only [Option.some.injEq, Prod.mk.injEq] at h ⊢
        exact ⟨by rw [h.1], h.2⟩

omit H in
theorem memCounterCall_le (limit : Nat) (σ : Nat → Bytes → Bytes) (i : Nat) (hi : i ≤ limit) (c : MemCall) :
    (memCounterCall limit σ i c).2 ≤ limit := by
  obtain ⟨call, fail⟩ := c
  cases call with
  | setIndex n =>
    rw [memCounterCall]
    simp only [counterCall]
    split
    · simp only; omega
    · exact hi
  | sign m =>
    rw [memCounterCall]
    simp only [counterCall]
    split
    · exact hi
    · split
      · simp only; omega
      · exact hi

theorem FastOk.runMem (cs : List MemCall) : ∀ i, i ≤ 2 ^ o0.height.toNat →
    runMem (XmssFast.callMem S) (fastAt S hf K o0 i) cs =
      some ((memCounterRun (2 ^ o0.height.toNat)
          (signature (hf.prim S) w o0.height.toNat K.skSeed K.skPrf K.ps) i cs).1,
        fastAt S hf K o0 (memCounterRun (2 ^ o0.height.toNat)
          (signature (hf.prim S) w o0.height.toNat K.skSeed K.skPrf K.ps) i cs).2) ∧
    (memCounterRun (2 ^ o0.height.toNat)
          (signature (hf.prim S) w o0.height.toNat K.skSeed K.skPrf K.ps) i cs).2 ≤ 2 ^ o0.height.toNat := by
  induction cs with
  | nil => intro i hi; exact ⟨rfl, hi⟩
  | cons c cs ih =>
    intro i hi
    have hle := memCounterCall_le (2 ^ o0.height.toNat)
      (signature (hf.prim S) w o0.height.toNat K.skSeed K.skPrf K.ps) i hi c
    obtain ⟨e1, e2⟩ := ih _ hle
    refine ⟨?_, e2⟩
    rw [Qrl.runMem, FastOk.callMem H i hi c]
    simp only
    rw [e1]
    rfl

end

/-- The calls that get their memory, on the ideal counter. -/
theorem memCounter_survived (limit : Nat) (σ : Nat → Bytes → Bytes) (cs : List MemCall) : ∀ i,
    counterRun limit σ i (survived cs (memCounterRun limit σ i cs).1) =
      ((memCounterRun limit σ i cs).1.filterMap id, (memCounterRun limit σ i cs).2) := by
  induction cs with
  | nil => intro i; rfl
  | cons c cs ih =>
    intro i
    rw [memCounterRun]
    have key : (memCounterCall limit σ i c).1 = none ∧ (memCounterCall limit σ i c).2 = i ∨
        (memCounterCall limit σ i c).1 = some (counterCall limit σ i c.call).1 ∧
        (memCounterCall limit σ i c).2 = (counterCall limit σ i c.call).2 := by
      obtain ⟨call, fail⟩ := c
      cases call with
      | setIndex n => exact Or.inr ⟨rfl, rfl⟩
      | sign m =>
        rw [memCounterCall]
        simp only
        by_cases hc : fail = some 0 ∨ fail = some 1 ∧ i < limit
        · rw [if_pos hc]; exact Or.inl ⟨rfl, rfl⟩
        · rw [if_neg hc]; exact Or.inr ⟨rfl, rfl⟩
    rcases key with ⟨k1, k2⟩ | ⟨k1, k2⟩
    · rw [k1, k2]
      simp only [survived]
      rw [ih i]
      rfl
    · rw [k1, k2]
      simp only [survived, counterRun]
      rw [ih]
      rfl

/-- C82. A program that survives `std::bad_alloc` and goes on signing: over any history of `setIndex` and `sign` calls on an
`XmssFast`, whichever allocations fail, the replies are those of the ideal counter, where a `sign` that runs out of memory does
nothing; and the replies of the other calls and the final object are exactly what the history without the failed calls gives. -/
theorem C82_fast_history (S : Sha256) (seed : Bytes) (height : UInt8) (hf : HashFn) (af : Nat) (o0 : XmssFast)
    (hnew : XmssFast.new S seed height hf.toNat af = ok o0) (cs : List MemCall) :
    ∃ rs o, runMem (XmssFast.callMem S) o0 cs = some (rs, o) ∧
      rs = (memCounterRun (2 ^ height.toNat) (seedSignature S hf 16 height.toNat seed) 0 cs).1 ∧
      o.getIndex = ok (memCounterRun (2 ^ height.toNat) (seedSignature S hf 16 height.toNat seed) 0 cs).2 ∧
      runCalls (XmssFast.call S) o0 (survived cs rs) = some (rs.filterMap id, o) := by
  obtain ⟨hs, hg, f, hf1, hf2, rfl, e2, e3, e4, p, k, q, hp, e5, H⟩ := fast_fresh hnew
  rw [ofNat?_toNat] at hf2
  cases hf2
  obtain ⟨hr, hle⟩ := FastOk.runMem H cs 0 (Nat.zero_le _)
  rw [fastAt_zero H] at hr
  refine ⟨_, _, hr, rfl, H.getIndex _ hle, ?_⟩
  have hc := H.run (survived cs (memCounterRun (2 ^ o0.height.toNat)
          (signature (hf.prim S) 16 o0.height.toNat (keyOf S hf 16 o0.height.toNat (lenW_pos (by omega)) seed).skSeed
            (keyOf S hf 16 o0.height.toNat (lenW_pos (by omega)) seed).skPrf
            (keyOf S hf 16 o0.height.toNat (lenW_pos (by omega)) seed).ps) 0 cs).1) 0 (Nat.zero_le _)
  rw [fastAt_zero H, memCounter_survived] at hc
  exact hc

/-- C82. So no one-time key is used twice, whatever fails. -/
theorem C82_fast_no_reuse (S : Sha256) (seed : Bytes) (height : UInt8) (hf : HashFn) (af : Nat) (o0 : XmssFast)
    (hnew : XmssFast.new S seed height hf.toNat af = ok o0) (cs : List MemCall) (rs : List (Option Reply)) (o : XmssFast)
    (h : runMem (XmssFast.callMem S) o0 cs = some (rs, o)) :
    ((signatures (rs.filterMap id)).map sigIndex).Pairwise (· < ·) := by
  obtain ⟨rs', o', h1, _, _, h2⟩ := C82_fast_history S seed height hf af o0 hnew cs
  rw [h] at h1
  cases h1
  exact (C16_fast_no_reuse S seed height hf.toNat af o0 hnew _ _ _ h2).1

theorem runMem_cons {σ : Type} (call : σ → MemCall → Option (Option Reply × σ)) (o : σ) (c : MemCall) (cs : List MemCall) :
    runMem call o (c :: cs) = (call o c).bind fun x => (runMem call x.2 cs).map fun y => (x.1 :: y.1, y.2) := by
  rw [runMem]
  cases call o c with
  | none => rfl
  | some x => simp only [Option.bind_some]; cases runMem call x.2 cs <;> rfl

theorem runCalls_cons {σ : Type} (call : σ → Call → Option (Reply × σ)) (o : σ) (c : Call) (cs : List Call) :
    runCalls call o (c :: cs) = (call o c).bind fun x => (runCalls call x.2 cs).map fun y => (x.1 :: y.1, y.2) := by
  rw [runCalls]
  cases call o c with
  | none => rfl
  | some x => simp only [Option.bind_some]; cases runCalls call x.2 cs <;> rfl

/-- C82. The same for `XmssBasic`, for every object whatsoever that can say how long its signatures are: the calls that get their
memory do exactly what they do in a history without the others (undefined behaviour included). -/
theorem C82_basic_history (S : Sha256) (cs : List MemCall) : ∀ (o : XmssBase), (∃ n, o.getSignatureSize o.params.wots.w = ok n) →
    (runMem (XmssBasic.callMem S) o cs).map (fun x => (x.1.filterMap id, x.2)) =
      runCalls (XmssBasic.call S) o ((cs.filter MemCall.fed).map MemCall.call) := by
  induction cs with
  | nil => intro o _; rfl
  | cons c cs ih =>
    intro o ⟨n, hn⟩
    obtain ⟨call, fail⟩ := c
    have tail : ∀ (x : Option (Reply × XmssBase)), (∀ r o', x = some (r, o') → ∃ n, o'.getSignatureSize o'.params.wots.w = ok n) →
        ((x.map (fun y : Reply × XmssBase => ((some y.1 : Option Reply), y.2))).bind fun x =>
          (runMem (XmssBasic.callMem S) x.2 cs).map fun y => (x.1 :: y.1, y.2)).map (fun x => (x.1.filterMap id, x.2)) =
        x.bind fun x => (runCalls (XmssBasic.call S) x.2 ((cs.filter MemCall.fed).map MemCall.call)).map fun y => (x.1 :: y.1, y.2) := by
      intro x hx
      cases x with
      | none => rfl
      | some y =>
        obtain ⟨r, o'⟩ := y
        have hi := ih o' (hx r o' rfl)
        simp only [Option.map_some, Option.bind_some]
        rw [← hi]
        cases runMem (XmssBasic.callMem S) o' cs with
        | none => rfl
        | some z => rfl
    cases call with
    | setIndex i =>
      have hc : XmssBasic.callMem S o ⟨.setIndex i, fail⟩ = (XmssBasic.call S o (.setIndex i)).map (fun y : Reply × XmssBase => ((some y.1 : Option Reply), y.2)) := by
        rw [XmssBasic.callMem, XmssBasic.call]
        simp only
        cases o.setIndex i.toNat <;> rfl
      rw [runMem_cons, hc, List.filter_cons_of_pos (by rfl), List.map_cons, runCalls_cons]
      apply tail
      intro r o' h
      rw [XmssBasic.call] at h
      cases hs : o.setIndex i.toNat with
      | ok y =>
        rw [hs] at h
        obtain ⟨j, o1⟩ := y
        simp only [Option.some.injEq, Prod.mk.injEq] at h
        obtain ⟨-, rfl⟩ := h
        rw [XmssBase.setIndex] at hs
        obtain ⟨s1, _, hs⟩ := bind_eq_ok.mp hs
        obtain ⟨s2, _, hs⟩ := bind_eq_ok.mp hs
        obtain ⟨s3, _, hs⟩ := bind_eq_ok.mp hs
        obtain ⟨s4, _, hs⟩ := bind_eq_ok.mp hs
        obtain ⟨s5, _, hs⟩ := bind_eq_ok.mp hs
        cases hs
        exact ⟨n, hn⟩
      | throw e => rw [hs] at h; cases h; exact ⟨n, hn⟩
      | ub => rw [hs] at h; cases h
    | sign m =>
      by_cases hf : fail = some 0 ∨ fail = some 1
      · have hc : XmssBasic.callMem S o ⟨.sign m, fail⟩ = some (none, o) := by
          rw [XmssBasic.callMem]
          simp only
          rw [XmssBasic.signMem, hn]
          simp only
          rw [if_pos hf]
        rw [runMem_cons, hc, List.filter_cons_of_neg (by rcases hf with rfl | rfl <;> simp [MemCall.fed])]
        simp only [Option.bind_some]
        rw [← ih o ⟨n, hn⟩]
        cases runMem (XmssBasic.callMem S) o cs <;> rfl
      · have hc : XmssBasic.callMem S o ⟨.sign m, fail⟩ = (XmssBasic.call S o (.sign m)).map (fun y : Reply × XmssBase => ((some y.1 : Option Reply), y.2)) := by
          rw [XmssBasic.callMem, XmssBasic.call]
          simp only
          rw [XmssBasic.signMem, hn]
          simp only
          rw [if_neg hf]
          cases XmssBasic.sign S o m <;> rfl
        rw [runMem_cons, hc, List.filter_cons_of_pos (by simp only [MemCall.fed]; simpa using hf), List.map_cons, runCalls_cons]
        apply tail
        intro r o' h
        rw [XmssBasic.call] at h
        cases hs : XmssBasic.sign S o m with
        | ok y =>
          rw [hs] at h
          obtain ⟨sg, o1⟩ := y
          simp only [Option.some.injEq, Prod.mk.injEq] at h
          obtain ⟨-, rfl⟩ := h
          rw [XmssBasic.sign] at hs
          obtain ⟨s1, _, hs⟩ := bind_eq_ok.mp hs
          rw [withHash] at hs
          cases hh : HashFn.ofNat? o.hashFunction with
          | none => rw [hh] at hs; cases hs
          | some f =>
            rw [hh] at hs
            obtain ⟨⟨sk, data⟩, _, hs⟩ := bind_eq_ok.mp hs
            obtain ⟨sg', _, hs⟩ := bind_eq_ok.mp hs
            cases hs
            exact ⟨n, hn⟩
        | throw e => rw [hs] at h; cases h; exact ⟨n, hn⟩
        | ub => rw [hs] at h; cases h


theorem sigParts_zero (S : Sha256) (hf : HashFn) (w : Nat) (m : Bytes) :
    sigParts S hf w zeroKey 0 m = zeroKeySignature (hf.prim S) w m := by
  rw [sigParts, zeroKeySignature, idxBytes_eq]
  rfl

/-- C82. `initialize_tree` that finds no memory at its very first allocation has done nothing. -/
theorem C82_init_first (S : Sha256) (o : XmssFast) (w : Nat) : o.initializeTreeMem S w (some 0) = .badAlloc o := by
  rw [XmssFast.initializeTreeMem, if_pos rfl]

theorem initMem_eq {S : Sha256} {o : XmssFast} (hg : GoodHeight o.height) {w : Nat} {p : WotsParams} (hp : wotsSetParams w = ok p)
    {n : Nat} (h2 : 2 ≤ n) (h8 : n ≤ 8) :
    o.initializeTreeMem S w (some n) = .badAlloc
      { o with sk := List.replicate 132 0, params := ⟨p, o.height.toNat⟩, state := o.state.freeFirst (n - 2) } := by
  obtain ⟨g1, g2, g3⟩ := hg
  rw [XmssFast.initializeTreeMem, if_neg (by simp only [Option.some.injEq]; omega)]
  simp only
  rw [if_neg (by simp only [Option.some.injEq]; omega), if_neg (by omega), xmssSetParams, hp]
  simp only [ok_bind]
  rw [if_neg (by omega)]
  simp only
  rw [if_pos h8]

/-- C82. `initialize_tree` that runs out of memory at its second or third allocation throws and leaves a signing object that holds the
all-zero key: its index is 0, its secret seed and the root and seed in its public key are zeros (its extended seed still is the
wallet's), and for every message it returns a signature that begins with what everybody can compute. So it is not true that a failed
call leaves the object as it was, nor that it leaves it unusable. -/
theorem C82_init_failed_refuted (S : Sha256) (seed : Bytes) (height : UInt8) (hf : HashFn) (af : Nat) (o0 : XmssFast)
    (hnew : XmssFast.new S seed height hf.toNat af = ok o0) (cs : List Call) (rs : List Reply) (o : XmssFast)
    (hrun : runCalls (XmssFast.call S) o0 cs = some (rs, o)) (w : Nat) (hw : w = 2 ∨ w = 4 ∨ w = 16 ∨ w = 256)
    (n w' : Nat) (hn : (n = 1 ∧ w' = 16) ∨ (n = 2 ∧ w' = w)) :
    ∃ o', o.initializeTreeMem S w (some n) = .badAlloc o' ∧ o'.getIndex = ok 0 ∧
      o'.getSKSeed = ok (List.replicate 32 0) ∧ o'.getExtendedSeed = o.getExtendedSeed ∧
      (∃ pk, o'.getPK = ok pk ∧ keyRoot pk = List.replicate 32 0 ∧ keySeed pk = List.replicate 32 0) ∧
      ∀ m : Bytes, ∃ s o2, o'.sign S m = .ret s o2 ∧ sigIndex s = 0 ∧
        s.take (36 + 32 * lenW w') = zeroKeySignature (hf.prim S) w' m := by
  obtain ⟨f, p, k, q, i, hf1, hf2, hg, hs, e1, e2, e3, hp, H, hi, gi, -, -, ho⟩ := fast_reach hnew hrun
  rw [ofNat?_toNat] at hf2
  cases hf2
  subst e1
  have key : ∀ (w' : Nat), (w' = 2 ∨ w' = 4 ∨ w' = 16 ∨ w' = 256) → ∀ p' : WotsParams, wotsSetParams w' = ok p' →
      ∀ o' : XmssFast, o' = { o with sk := List.replicate 132 0, params := ⟨p', o0.height.toNat⟩ } →
      o'.getIndex = ok 0 ∧
      o'.getSKSeed = ok (List.replicate 32 0) ∧ o'.getExtendedSeed = o.getExtendedSeed ∧
      (∃ pk, o'.getPK = ok pk ∧ keyRoot pk = List.replicate 32 0 ∧ keySeed pk = List.replicate 32 0) ∧
      ∀ m : Bytes, ∃ s o2, o'.sign S m = .ret s o2 ∧ sigIndex s = 0 ∧
        s.take (36 + 32 * lenW w') = zeroKeySignature (hf.prim S) w' m := by
    intro w' hw' p' hp' o' ho'
    obtain ⟨p2, k2, q2, hp2, hsp, h1, -⟩ := base_ok hw'
    rw [hp'] at hp2
    cases hp2
    have a1 : o'.sk = zeroKey.sk 0 := by rw [ho', zeroKey_sk]
    refine ⟨zeroKey.getIndex _ 0 a1 (by omega), ?_, ?_, ?_, ?_⟩
    · rw [XmssBase.getSKSeed, a1, zeroKey.seed_slice]; rfl
    · rw [ho']; rfl
    · refine ⟨o'.getDescriptorBytes ++ List.replicate 32 0 ++ List.replicate 32 0, ?_, ?_, ?_⟩
      · rw [XmssBase.getPK, XmssBase.getRoot, XmssBase.getPKSeed, a1, zeroKey.root_slice, zeroKey.ps_slice]; rfl
      · rfl
      · rfl
    · intro m
      obtain ⟨rest, o2, hl, hidx, e⟩ := FastOk.sign_replaced H i hw' hsp h1 zeroKey m
      refine ⟨sigParts S hf w' zeroKey 0 m ++ rest, o2, ?_, ?_, ?_⟩
      · rw [← e, ho', ho, zeroKey_sk]
      · rw [sigParts, idxBytes_eq]; rfl
      · rw [List.take_append_of_le_length (by rw [length_sigParts S hf hsp]),
          List.take_of_length_le (by rw [length_sigParts S hf hsp]), sigParts_zero]
  have hoh : o.height = o0.height := by rw [ho]; rfl
  have hop : o.params = ⟨p, o0.height.toNat⟩ := by rw [ho]; exact e3
  rcases hn with ⟨rfl, rfl⟩ | ⟨rfl, rfl⟩
  · refine ⟨{ o with sk := List.replicate 132 0 }, ?_, key 16 (by omega) p hp _ (by rw [← hop])⟩
    rw [XmssFast.initializeTreeMem, if_neg (by simp)]
    exact if_pos rfl
  · obtain ⟨p', k', q', hp', -⟩ := base_ok hw
    refine ⟨_, initMem_eq (by rw [hoh]; exact hg) hp' (by omega) (by omega), key w' hw p' hp' _ ?_⟩
    rw [hoh]
    rfl

/-- C82. Whichever allocation but the first fails, `initialize_tree` leaves the all-zero key: index 0 and zeros for the secret seed, the
secret randomiser key, the root and the public seed, in an object that still shows the wallet's extended seed, height and descriptor. -/
theorem C82_init_zero_key_refuted (S : Sha256) (seed : Bytes) (height : UInt8) (hf : HashFn) (af : Nat) (o0 : XmssFast)
    (hnew : XmssFast.new S seed height hf.toNat af = ok o0) (cs : List Call) (rs : List Reply) (o : XmssFast)
    (hrun : runCalls (XmssFast.call S) o0 cs = some (rs, o)) (w : Nat) (hw : w = 2 ∨ w = 4 ∨ w = 16 ∨ w = 256)
    (n : Nat) (h1 : 1 ≤ n) (h8 : n ≤ 8) :
    ∃ o', o.initializeTreeMem S w (some n) = .badAlloc o' ∧ o'.getIndex = ok 0 ∧ o'.getSKSeed = ok (List.replicate 32 0) ∧
      o'.getSKPRF = ok (List.replicate 32 0) ∧ o'.getPK = ok (o.getDescriptorBytes ++ List.replicate 64 0) ∧
      o'.getExtendedSeed = o.getExtendedSeed ∧ o'.height = height := by
  obtain ⟨f, p, k, q, i, hf1, hf2, hg, hs, e1, e2, e3, hp, H, hi, gi, -, -, ho⟩ := fast_reach hnew hrun
  rw [ofNat?_toNat] at hf2
  cases hf2
  subst e1
  have hoh : o.height = o0.height := by rw [ho]; rfl
  have key : ∀ o' : XmssFast, o'.sk = List.replicate 132 0 → o'.height = o.height → o'.getDescriptorBytes = o.getDescriptorBytes →
      o'.getExtendedSeed = o.getExtendedSeed → o'.getIndex = ok 0 ∧ o'.getSKSeed = ok (List.replicate 32 0) ∧
      o'.getSKPRF = ok (List.replicate 32 0) ∧ o'.getPK = ok (o.getDescriptorBytes ++ List.replicate 64 0) ∧
      o'.getExtendedSeed = o.getExtendedSeed ∧ o'.height = o0.height := by
    intro o' a1 a2 a3 a4
    rw [← zeroKey_sk] at a1
    refine ⟨zeroKey.getIndex _ 0 a1 (by omega), ?_, ?_, ?_, a4, a2.trans hoh⟩
    · rw [XmssBase.getSKSeed, a1, zeroKey.seed_slice]; rfl
    · rw [XmssBase.getSKPRF, a1, zeroKey.prf_slice]; rfl
    · rw [XmssBase.getPK, XmssBase.getRoot, XmssBase.getPKSeed, a1, zeroKey.root_slice, zeroKey.ps_slice, a3]
      show ok (_ ++ List.replicate 32 0 ++ List.replicate 32 0) = _
      rw [List.append_assoc]; rfl
  rcases Nat.lt_or_ge n 2 with h2 | h2
  · have : n = 1 := by omega
    subst this
    refine ⟨{ o with sk := List.replicate 132 0 }, ?_, key _ rfl rfl rfl rfl⟩
    rw [XmssFast.initializeTreeMem, if_neg (by simp)]
    exact if_pos rfl
  · obtain ⟨p', k', q', hp', -⟩ := base_ok hw
    exact ⟨_, initMem_eq (by rw [hoh]; exact hg) hp' h2 h8, key _ rfl rfl rfl rfl⟩

/-- C82. From its sixth allocation on, running out of memory in `initialize_tree` leaves an object on which every `sign` is undefined
behaviour: it reads an authentication path that has been freed. -/
theorem C82_init_dangling_refuted (S : Sha256) (seed : Bytes) (height : UInt8) (hf : HashFn) (af : Nat) (o0 : XmssFast)
    (hnew : XmssFast.new S seed height hf.toNat af = ok o0) (cs : List Call) (rs : List Reply) (o : XmssFast)
    (hrun : runCalls (XmssFast.call S) o0 cs = some (rs, o)) (w : Nat) (hw : w = 2 ∨ w = 4 ∨ w = 16 ∨ w = 256)
    (n : Nat) (h5 : 5 ≤ n) (h8 : n ≤ 8) :
    ∃ o', o.initializeTreeMem S w (some n) = .badAlloc o' ∧ ∀ m : Bytes, o'.sign S m = .ub := by
  obtain ⟨f, p, k, q, i, hf1, hf2, hg, hs, e1, e2, e3, hp, H, hi, gi, -, -, ho⟩ := fast_reach hnew hrun
  rw [ofNat?_toNat] at hf2
  cases hf2
  subst e1
  have hoh : o.height = o0.height := by rw [ho]; rfl
  obtain ⟨p', k', q', hp', hsp, h1, -⟩ := base_ok hw
  refine ⟨_, initMem_eq (by rw [hoh]; exact hg) hp' (by omega) (by omega), ?_⟩
  intro m
  generalize ho' : ({ o with sk := List.replicate 132 0, params := ⟨p', o.height.toNat⟩, state := o.state.freeFirst (n - 2) } : XmssFast) = o'
  have a1 : o'.sk = zeroKey.sk 0 := by rw [← ho', zeroKey_sk]
  have a2 : o'.params = ⟨p', o0.height.toNat⟩ := by rw [← ho', hoh]
  have a3 : o'.state.auth = [] := by
    rw [← ho']
    show (if 3 ≤ n - 2 then [] else o.state.auth) = []
    rw [if_pos (by omega)]
  have a4 : o'.hashFunction = hf.toNat := by rw [← ho', ho]; exact H.hof
  have hlt := H.pow_lt
  have h4 := hg.1
  have h30 := hg.2.1
  have h16 : 2 ^ 4 ≤ 2 ^ o0.height.toNat := Nat.pow_le_pow_right (by omega) h4
  have a6 : o'.getIndex = ok 0 := zeroKey.getIndex _ 0 a1 (by omega)
  have b1 : o'.setIndex S 0 = .ret 0 o' := by
    rw [XmssFast.setIndex, a4, ofNat?_toNat]
    simp only
    rw [xmssfastUpdate, a2, a1]
    simp only
    rw [if_neg (by omega), zeroKey.idx 0 (by omega)]
    simp only
    rw [if_neg (by omega), if_neg (by omega)]
    simp only [zeroKey.seed_slice, zeroKey.ps_slice, ok_bind, Nat.sub_self, advanceLoop, Step.ofOutcome, zeroKey.reindex]
    rw [← a1, ← a2, ← a4]
  obtain ⟨b', c', d', e⟩ := wotsSign_spec S hf hsp (Spec.Hmsg (hf.prim S)
          (Spec.PRF (hf.prim S) zeroKey.skPrf (Spec.be 32 0) ++ zeroKey.root ++ Spec.be 32 0) m) zeroKey.skSeed zeroKey.ps 0 0 0 0
    (length_Hmsg ..)
  have b3 : ∀ h, 4 ≤ h → authOut [] h 0 = .ub := by
    intro h hh
    obtain ⟨h, rfl⟩ : ∃ h', h = h' + 1 := ⟨h - 1, by omega⟩
    rfl
  have b2 : xmssfastSignmsg S hf o'.params o'.sk o'.state m = .ub := by
    rw [a1, a2]
    simp only [xmssfastSignmsg, zeroKey.idx 0 (by omega), zeroKey.seed_slice, zeroKey.prf_slice, zeroKey.ps_slice, ok_bind, zeroKey.reindex,
      zeroKey.root_slice, prf_eq, toByte_eq_be, hMsg_eq, Adrs.setType, Adrs.setOTS, getSeed_eq]
    rw [e]
    simp only [ok_bind]
    rw [a3, b3 _ h4]
    rfl
  rw [XmssFast.sign, show o'.params.wots.w = w by rw [a2]; exact hsp.pw, Props.C22_signature_size _ w hw, a6]
  simp only
  rw [b1]
  simp only
  rw [withHash_of a4, b2]
  rfl

theorem nt_bind {α β : Type} {x : Outcome α} {f : α → Outcome β} (h1 : ∀ e, x ≠ throw e) (h2 : ∀ a e, x = ok a → f a ≠ throw e) (e : Exc) :
    (x >>= f) ≠ throw e := by
  cases x with
  | ok a => rw [ok_bind]; exact h2 a e rfl
  | throw e' => exact absurd rfl (h1 e')
  | ub => rw [ub_bind]; simp

theorem nt_rd {α : Type} (l : List α) (i : Nat) (e : Exc) : rd l i ≠ throw e := by rw [rd]; cases l[i]? <;> simp [ofOption]
theorem nt_wr {α : Type} (l : List α) (i : Nat) (x : α) (e : Exc) : wr l i x ≠ throw e := by rw [wr]; split <;> simp
theorem nt_rdUse (l : List Cell) (i : Nat) (e : Exc) : rdUse l i ≠ throw e := by
  rw [rdUse, rd]
  cases l[i]? with
  | none => intro h; cases h
  | some c => cases c <;> (intro h; cases h)

theorem nt_minHeight (st : BdsState) (m : Nat) : ∀ i r e, minHeightLoop st m i r ≠ throw e := by
  induction m with
  | zero => intro i r e; rw [minHeightLoop]; simp
  | succ m ih =>
    intro i r e
    rw [minHeightLoop]
    split
    · exact nt_bind (nt_rd _ _) (fun _ _ _ => ih _ _ _) e
    · simp

theorem nt_pick (st : BdsState) (p : XmssParams) (m : Nat) : ∀ i level lMin e, pickLevel st p m i level lMin ≠ throw e := by
  induction m with
  | zero => intro i level lMin e; rw [pickLevel]; simp
  | succ m ih =>
    intro i level lMin e
    rw [pickLevel]
    refine nt_bind (nt_rd _ _) (fun t e _ => ?_) e
    dsimp only
    have key : ∀ low e, (if low < lMin then pickLevel st p m (i + 1) i low else pickLevel st p m (i + 1) level lMin) ≠ throw e := by
      intro low e
      split <;> exact ih _ _ _ _
    split
    · rw [ok_bind]; exact key _ _
    · split
      · exact key _ _
      · exact nt_bind (nt_minHeight st _ _ _) (fun a e _ => key a e) e

theorem nt_merge (S : Sha256) (hf : HashFn) (ps : Bytes) (s : List Cell) (lv : List Nat) (n : Nat) (su : Nat) :
    ∀ so nd nh ad e, updateMerge S hf ps s lv n su so nd nh ad ≠ throw e := by
  induction su with
  | zero => intro so nd nh ad e; rw [updateMerge]; simp
  | succ su ih =>
    intro so nd nh ad e
    rw [updateMerge]
    split
    · simp
    · refine nt_bind (nt_rd _ _) (fun l e _ => ?_) e
      split
      · exact nt_bind (nt_rdUse _ _) (fun _ _ _ => ih _ _ _ _ _) e
      · simp

theorem nt_update (S : Sha256) (hf : HashFn) (sk ps : Bytes) (p : XmssParams) (h1 : 1 ≤ p.wots.len) (level : Nat) (st : BdsState) (e : Exc) :
    treehashUpdate S hf level st sk p ps {} ≠ throw e := by
  rw [treehashUpdate]
  simp only [Adrs.derive, Adrs.setType, Adrs.setLtree, Adrs.setOTS]
  refine nt_bind (nt_rd _ _) (fun t e _ => ?_) e
  obtain ⟨b1, c1, d1, b2, c2, d2, e'⟩ := genLeafWots_eq S hf sk p ps h1 t.nextIdx 0 0 0 0 0 0
  rw [e']
  simp only [ok_bind]
  refine nt_bind (nt_merge _ _ _ _ _ _ _ _ _ _ _) (fun m e _ => ?_) e
  split
  · exact nt_bind (nt_wr _ _ _) (fun _ _ _ => by simp) e
  · exact nt_bind (nt_wr _ _ _) (fun _ _ _ => nt_bind (nt_wr _ _ _) (fun _ _ _ => nt_bind (nt_wr _ _ _) (fun _ _ _ => by simp) _) _) e

theorem nt_updates (S : Sha256) (hf : HashFn) (sk ps : Bytes) (p : XmssParams) (h1 : 1 ≤ p.wots.len) (n : Nat) : ∀ st e,
    bdsTreehashUpdate S hf sk p ps {} n st ≠ throw e := by
  induction n with
  | zero => intro st e; rw [bdsTreehashUpdate]; simp
  | succ n ih =>
    intro st e
    rw [bdsTreehashUpdate]
    refine nt_bind (nt_pick _ _ _ _ _ _) (fun l e _ => ?_) e
    split
    · simp
    · exact nt_bind (nt_update S hf sk ps p h1 l st) (fun _ _ _ => ih _ _) e

/-- C82. In between, at the fourth and fifth allocation, it is one or the other: every `sign` on the object that is left either uses the
freed stack (undefined behaviour) or signs with the all-zero key. -/
theorem C82_init_between_refuted (S : Sha256) (seed : Bytes) (height : UInt8) (hf : HashFn) (af : Nat) (o0 : XmssFast)
    (hnew : XmssFast.new S seed height hf.toNat af = ok o0) (cs : List Call) (rs : List Reply) (o : XmssFast)
    (hrun : runCalls (XmssFast.call S) o0 cs = some (rs, o)) (w : Nat) (hw : w = 2 ∨ w = 4 ∨ w = 16 ∨ w = 256)
    (n : Nat) (hn : n = 3 ∨ n = 4) :
    ∃ o', o.initializeTreeMem S w (some n) = .badAlloc o' ∧ ∀ m : Bytes, o'.sign S m = .ub ∨
      ∃ s o2, o'.sign S m = .ret s o2 ∧ sigIndex s = 0 ∧
        s.take (36 + 32 * lenW w) = zeroKeySignature (hf.prim S) w m := by
  obtain ⟨f, p, k, q, i, hf1, hf2, hg, hs, e1, e2, e3, hp, H, hi, gi, -, -, ho⟩ := fast_reach hnew hrun
  rw [ofNat?_toNat] at hf2
  cases hf2
  subst e1
  have hoh : o.height = o0.height := by rw [ho]; rfl
  obtain ⟨p', k', q', hp', hsp, h1, -⟩ := base_ok hw
  refine ⟨_, initMem_eq (by rw [hoh]; exact hg) hp' (by omega) (by omega), ?_⟩
  intro m
  have hlt := H.pow_lt
  have h4 := hg.1
  have h30 := hg.2.1
  have h16 : 2 ^ 4 ≤ 2 ^ o0.height.toNat := Nat.pow_le_pow_right (by omega) h4
  generalize hj : min i (2 ^ o0.height.toNat - 1) = j
  have hjlt : j < 2 ^ o0.height.toNat := by omega
  obtain ⟨T, hinv⟩ := H.adv j hjlt
  obtain ⟨path, pe, -⟩ := H.path_at j hjlt
  have hl := H.length_path j hjlt path pe
  have hst : o.state = stAt S hf o0.params (keyOf S hf 16 o0.height.toNat (lenW_pos (by omega)) seed).skSeed
      (keyOf S hf 16 o0.height.toNat (lenW_pos (by omega)) seed).ps o0.state j := by rw [ho, ← hj]; rfl
  rw [← hst] at hinv pe
  generalize ho' : ({ o with sk := List.replicate 132 0, params := ⟨p', o.height.toNat⟩, state := o.state.freeFirst (n - 2) } : XmssFast) = o'
  have a1 : o'.sk = zeroKey.sk 0 := by rw [← ho', zeroKey_sk]
  have a2 : o'.params = ⟨p', o0.height.toNat⟩ := by rw [← ho', hoh]
  have a3 : o'.state.auth = o.state.auth ∧ o'.state.keep = o.state.keep := by
    rw [← ho']
    show (if 3 ≤ n - 2 then [] else o.state.auth) = _ ∧ (if 4 ≤ n - 2 then [] else o.state.keep) = _
    rw [if_neg (by omega), if_neg (by omega)]
    exact ⟨rfl, rfl⟩
  have a4 : o'.hashFunction = hf.toNat := by rw [← ho', ho]; exact H.hof
  have a5 : o'.height = o0.height := by rw [← ho', ho]; rfl
  have a6 : o'.getIndex = ok 0 := zeroKey.getIndex _ 0 a1 (by omega)
  have b1 : o'.setIndex S 0 = .ret 0 o' := by
    rw [XmssFast.setIndex, a4, ofNat?_toNat]
    simp only
    rw [xmssfastUpdate, a2, a1]
    simp only
    rw [if_neg (by omega), zeroKey.idx 0 (by omega)]
    simp only
    rw [if_neg (by omega), if_neg (by omega)]
    simp only [zeroKey.seed_slice, zeroKey.ps_slice, ok_bind, Nat.sub_self, advanceLoop, Step.ofOutcome, zeroKey.reindex]
    rw [← a1, ← a2, ← a4]
  obtain ⟨b', c', d', e⟩ := wotsSign_spec S hf hsp (Spec.Hmsg (hf.prim S)
          (Spec.PRF (hf.prim S) zeroKey.skPrf (Spec.be 32 0) ++ zeroKey.root ++ Spec.be 32 0) m) zeroKey.skSeed zeroKey.ps 0 0 0 0
    (length_Hmsg ..)
  obtain ⟨st1, r1, -⟩ := bdsRound_even S hf zeroKey.skSeed zeroKey.ps ⟨p', o0.height.toNat⟩ h1 h4 (i := 0) rfl
    (st := o'.state) (by rw [a3.1]; exact hinv.auth.lauth) (by rw [a3.2]; exact hinv.auth.lkeep)
  have hnt := nt_updates S hf zeroKey.skSeed zeroKey.ps ⟨p', o0.height.toNat⟩ h1 ((o0.height.toNat - 2) >>> 1) st1
  have b2 : xmssfastSignmsg S hf o'.params o'.sk o'.state m = .ub ∨ ∃ st2,
      xmssfastSignmsg S hf o'.params o'.sk o'.state m = ok (sigParts S hf w zeroKey 0 m ++ path.flatten, (zeroKey.sk 1, st2)) := by
    rw [a1, a2]
    simp only [xmssfastSignmsg, zeroKey.idx 0 (by omega), zeroKey.seed_slice, zeroKey.prf_slice, zeroKey.ps_slice, ok_bind, zeroKey.reindex,
      zeroKey.root_slice, prf_eq, toByte_eq_be, hMsg_eq, Adrs.setType, Adrs.setOTS, getSeed_eq]
    rw [e]
    simp only [ok_bind]
    rw [a3.1, pe, ok_bind, if_pos (by omega), bdsRound_addr]
    simp only [bdsTreehashUpdate_addr]
    rw [r1, ok_bind]
    cases hu : bdsTreehashUpdate S hf zeroKey.skSeed ⟨p', o0.height.toNat⟩ zeroKey.ps {} ((o0.height.toNat - 2) >>> 1) st1 with
    | ub => exact Or.inl rfl
    | throw e => exact absurd hu (hnt e)
    | ok st2 => exact Or.inr ⟨st2, rfl⟩
  rw [XmssFast.sign, show o'.params.wots.w = w by rw [a2]; exact hsp.pw, Props.C22_signature_size _ w hw, a6]
  simp only
  rw [b1]
  simp only
  rw [withHash_of a4]
  rcases b2 with b2 | ⟨st2, b2⟩
  · rw [b2]; exact Or.inl rfl
  · refine Or.inr ⟨sigParts S hf w zeroKey 0 m ++ path.flatten, { o' with sk := zeroKey.sk 1, state := st2 }, ?_, ?_, ?_⟩
    · rw [b2]
      simp only [ok_bind]
      rw [fillBuffer_exact]
      · rfl
      · rw [List.length_append, length_sigParts S hf hsp, hl, a5]
    · rw [sigParts, idxBytes_eq]; rfl
    · rw [List.take_append_of_le_length (by rw [length_sigParts S hf hsp]),
          List.take_of_length_le (by rw [length_sigParts S hf hsp]), sigParts_zero]

/-- C82. If none of its allocations fails, `initialize_tree` does what it does in C44. -/
theorem C82_init_enough (S : Sha256) (o : XmssFast) (w : Nat) (fail : Option Nat) (h : ∀ n, fail = some n → 9 ≤ n) :
    o.initializeTreeMem S w fail = MemStep.ofStep (o.initializeTree S w) := by
  have e : ({ o with sk := List.replicate 132 0 } : XmssFast).initializeTree S w = o.initializeTree S w := rfl
  have h0 : fail ≠ some 0 := fun h' => by have := h 0 h'; omega
  have h1 : fail ≠ some 1 := fun h' => by have := h 1 h'; omega
  rw [XmssFast.initializeTreeMem, if_neg h0]
  simp only
  rw [if_neg h1, e]
  by_cases hc : 2 ≥ o.height.toNat ∨ (o.height.toNat - 2) % 2 ≠ 0
  · rw [if_pos hc, XmssFast.initializeTree]
    simp only
    rw [if_pos hc]
    rfl
  · rw [if_neg hc]
    have hi : ∀ x, xmssSetParams o.height.toNat w = x → (∀ p, x ≠ ok p) →
        MemStep.ofStep (o.initializeTree S w) = (match x with
          | .throw y => .raise y { o with sk := List.replicate 132 0 }
          | _ => .ub) := by
      intro x hx hn
      rw [XmssFast.initializeTree]
      simp only
      rw [if_neg hc, initTree, hx]
      cases x with
      | ok p => exact absurd rfl (hn p)
      | throw y => rfl
      | ub => rfl
    cases hp : xmssSetParams o.height.toNat w with
    | ok p =>
      simp only
      cases fail with
      | none => rfl
      | some n =>
        have := h n rfl
        simp only
        rw [if_neg (by omega)]
    | throw y => rw [hi _ hp (by intro p; simp)]
    | ub => rw [hi _ hp (by intro p; simp)]

/-- C82. Whatever allocation failed, a later `initialize_tree` that succeeds gives exactly the object it would have given had the failed
call never been made. -/
theorem C82_init_retry (S : Sha256) (o o' o2 : XmssFast) (w w2 : Nat) (fail : Option Nat)
    (hbad : o.initializeTreeMem S w fail = .badAlloc o') (h : o.initializeTree S w2 = .ret () o2) :
    o'.initializeTreeMem S w2 none = .ret () o2 ∧ o.initializeTreeMem S w2 none = .ret () o2 := by
  rw [C82_init_enough S o' w2 none (by intro n hn; cases hn), C82_init_enough S o w2 none (by intro n hn; cases hn), h]
  refine ⟨?_, rfl⟩
  have goal : o'.initializeTree S w2 = .ret () o2 → MemStep.ofStep (o'.initializeTree S w2) = .ret () o2 := fun h => by rw [h]; rfl
  apply goal
  have key : ∀ (p : XmssParams) (sk : Bytes) (st : BdsState),
      ({ o with params := p, sk := sk, state := st } : XmssFast).initializeTree S w2 = .ret () o2 := by
    intro p sk st
    rw [XmssFast.initializeTree] at h ⊢
    simp only at h ⊢
    by_cases hc : 2 ≥ o.height.toNat ∨ (o.height.toNat - 2) % 2 ≠ 0
    · rw [if_pos hc] at h; cases h
    · rw [if_neg hc] at h ⊢
      cases hi : initTree S o.height o.hashFunction o.seed w2 with
      | ok x => rw [hi] at h; exact h
      | throw e => rw [hi] at h; cases h
      | ub => rw [hi] at h; cases h
  have hrest : o' = { o with params := o'.params, sk := o'.sk, state := o'.state } := by
    have ofS : ∀ x : Step XmssFast Unit, MemStep.ofStep x ≠ .badAlloc o' := by intro x; cases x <;> simp [MemStep.ofStep]
    rw [XmssFast.initializeTreeMem] at hbad
    split at hbad
    · cases hbad; rfl
    · simp only at hbad
      split at hbad
      · cases hbad; rfl
      · split at hbad
        · cases hbad
        · split at hbad
          · split at hbad
            · split at hbad
              · cases hbad; rfl
              · exact absurd hbad (ofS _)
            · exact absurd hbad (ofS _)
          · cases hbad
          · cases hbad
  rw [hrest]
  exact key _ _ _

/-- The theorems above are about something: a wallet whose first `sign` runs out of memory, and its second does not. -/
example : ∃ o0, XmssFast.new toySha zeroSeed 4 1 0 = ok o0 ∧
    ∃ rs o, runMem (XmssFast.callMem toySha) o0 [⟨.sign [1, 2, 3], some 1⟩, ⟨.sign [4], none⟩] = some (rs, o) ∧ o.getIndex = ok 1 ∧
      rs = [none, some (.sig (seedSignature toySha .shake_128 16 4 zeroSeed 0 [4]))] := by
  obtain ⟨o0, h⟩ := (C39_fast_succeeds toySha zeroSeed 4 1 0).mpr ⟨rfl, goodHeight4, by omega⟩
  obtain ⟨rs, o, h1, h2, h3, -⟩ := C82_fast_history toySha zeroSeed 4 .shake_128 0 o0 h
    [⟨.sign [1, 2, 3], some 1⟩, ⟨.sign [4], none⟩]
  exact ⟨o0, h, rs, o, h1, h3, h2⟩

/-- A wallet that signs once and then runs out of memory in `initialize_tree`. -/
theorem demo_C82 (S : Sha256) (n : Nat) (hn : n = 1 ∨ n = 6 ∨ n = 3) : ∃ o0, XmssFast.new S zeroSeed 4 1 0 = ok o0 ∧
    ∃ rs o, runCalls (XmssFast.call S) o0 [.sign [7]] = some (rs, o) ∧
      ∃ o', o.initializeTreeMem S 16 (some n) = .badAlloc o' ∧
        (n = 1 → ∀ m, ∃ s o2, o'.sign S m = .ret s o2 ∧
          s.take (36 + 32 * lenW 16) = zeroKeySignature (HashFn.shake_128.prim S) 16 m) ∧
        (n = 6 → ∀ m, o'.sign S m = .ub) ∧
        (n = 3 → ∀ m, o'.sign S m = .ub ∨ ∃ s o2, o'.sign S m = .ret s o2 ∧ sigIndex s = 0 ∧
          s.take (36 + 32 * lenW 16) = zeroKeySignature (HashFn.shake_128.prim S) 16 m) := by
  obtain ⟨o0, h⟩ := (C39_fast_succeeds S zeroSeed 4 1 0).mpr ⟨rfl, goodHeight4, by omega⟩
  obtain ⟨o, h1, -⟩ := C19_fast_refines_counter S zeroSeed 4 .shake_128 0 o0 h [.sign [7]]
  refine ⟨o0, h, _, o, h1, ?_⟩
  rcases hn with rfl | rfl | rfl
  · obtain ⟨o', a, -, -, -, -, b⟩ := C82_init_failed_refuted S zeroSeed 4 .shake_128 0 o0 h _ _ o h1 16 (by omega) 1 16 (by omega)
    refine ⟨o', a, ?_, by omega, by omega⟩
    intro _ m
    obtain ⟨s, o2, c, -, d⟩ := b m
    exact ⟨s, o2, c, d⟩
  · obtain ⟨o', a, b⟩ := C82_init_dangling_refuted S zeroSeed 4 .shake_128 0 o0 h _ _ o h1 16 (by omega) 6 (by omega) (by omega)
    exact ⟨o', a, by omega, fun _ => b, by omega⟩
  · obtain ⟨o', a, b⟩ := C82_init_between_refuted S zeroSeed 4 .shake_128 0 o0 h _ _ o h1 16 (by omega) 3 (by omega)
    exact ⟨o', a, by omega, by omega, fun _ => b⟩

example := demo_C82 toySha 1 (by omega)
example := demo_C82 toySha 6 (by omega)
example := demo_C82 toySha 3 (by omega)

/-- A wallet that signs once, runs out of memory in `initialize_tree`, and is repaired by a second call of it. -/
theorem demo_retry (S : Sha256) : ∃ o0 rs o o', XmssFast.new S zeroSeed 4 1 0 = ok o0 ∧
    runCalls (XmssFast.call S) o0 [.sign [7]] = some (rs, o) ∧ o.initializeTreeMem S 16 (some 6) = .badAlloc o' ∧
    (∀ m, o'.sign S m = .ub) ∧ o'.initializeTreeMem S 16 none = .ret () o0 := by
  obtain ⟨o0, h, rs, o, h1, o', h2, -, h3, -⟩ := demo_C82 S 6 (by omega)
  exact ⟨o0, rs, o, o', h, h1, h2, h3 rfl, (C82_init_retry S o o' o0 16 16 (some 6) h2
    (C44_initialize_resets S zeroSeed 4 1 0 o0 h _ _ o h1)).1⟩

example := demo_retry toySha

/-- A wallet that signs once and then fails in `initialize_tree` at its fourth allocation: the key shown is zeros. -/
example (S : Sha256) : ∃ o0 rs o o', XmssFast.new S zeroSeed 4 1 0 = ok o0 ∧
    runCalls (XmssFast.call S) o0 [.sign [7]] = some (rs, o) ∧ o.initializeTreeMem S 16 (some 3) = .badAlloc o' ∧
    o'.getPK = ok (o.getDescriptorBytes ++ List.replicate 64 0) := by
  obtain ⟨o0, h, rs, o, h1, -⟩ := demo_C82 S 6 (by omega)
  obtain ⟨o', a, -, -, -, b, -⟩ := C82_init_zero_key_refuted S zeroSeed 4 .shake_128 0 o0 h _ _ o h1 16 (by omega) 3 (by omega) (by omega)
  exact ⟨o0, rs, o, o', h, h1, a, b⟩

end Qrl.Props
