import Verif.Proof.Threads
import Verif.Proof.Honest
/-!
# Steps of calls on a shared `XmssBasic`
-/

namespace Qrl

open Outcome

/-- What is known of an `XmssBasic` that can sign. -/
structure BasicOk (S : Sha256) (hf : HashFn) (w : Nat) (K : KeyParts) (p : WotsParams) (k q : Nat) (o0 : XmssBase) : Prop where
  hw : w = 2 ∨ w = 4 ∨ w = 16 ∨ w = 256
  hp : SpecParams w p k q
  hlen : 1 ≤ p.len
  hop : o0.params = ⟨p, o0.height.toNat⟩
  hof : o0.hashFunction = hf.toNat
  h1 : 1 ≤ o0.height.toNat
  h24 : o0.height.toNat ≤ 24
  hroot : K.root = Spec.node (hf.prim S) w (Spec.lenW w) K.skSeed K.ps o0.height.toNat 0

/-- The object at index `i`. -/
def basicAt (K : KeyParts) (o0 : XmssBase) (i : Nat) : XmssBase := { o0 with sk := K.sk i }

theorem basicSignBody_eq (S : Sha256) (hf : HashFn) (p : XmssParams) (K : KeyParts) (j idx : Nat) (hi : idx < 2 ^ 32) (m : Bytes) :
    xmssSignmsg S hf p (K.sk idx) m =
      (basicSignBody S hf p (K.sk j) idx m >>= fun d => ok (K.sk (idx + 1), d)) := by
  simp only [xmssSignmsg, basicSignBody, K.idx idx hi, K.seed_slice, K.prf_slice, K.ps_slice, ok_bind, K.reindex, K.root_slice]
  generalize getSeed S hf K.skSeed _ = x
  obtain ⟨a, b⟩ := x
  simp only
  generalize wotsSign S hf p.wots _ _ _ _ = y
  cases y with
  | throw e => rfl
  | ub => rfl
  | ok y =>
    simp only [ok_bind]
    generalize computeAuthpathWots S hf idx K.skSeed p K.ps _ = z
    cases z with
    | throw e => rfl
    | ub => rfl
    | ok z => rfl

section
variable {S : Sha256} {hf : HashFn} {w : Nat} {K : KeyParts} {p : WotsParams} {k q : Nat} {o0 : XmssBase}
variable (H : BasicOk S hf w K p k q o0)
include H

theorem BasicOk.pow_lt : 2 ^ o0.height.toNat < 2 ^ 32 :=
  Nat.lt_of_le_of_lt (Nat.pow_le_pow_right (by omega) H.h24) (by omega)

omit H in
theorem basic_start_sign (S : Sha256) (K : KeyParts) (o0 : XmssBase) (j : Nat) (hj : j < 2 ^ 32) (m : Bytes) :
    basicStep S (basicAt K o0 j) (.start (.sign m)) = (basicAt K o0 j, .signWrite m j) := by
  rw [basicStep, show be32At (basicAt K o0 j).sk = ok j from K.idx j hj]

omit H in
theorem basic_start_setIndex (S : Sha256) (K : KeyParts) (o0 : XmssBase) (j : Nat) (n : UInt32) :
    basicStep S (basicAt K o0 j) (.start (.setIndex n)) = (basicAt K o0 n.toNat, .done (.index n.toNat)) := by
  rw [basicStep, baseSetIndex_eq K (basicAt K o0 j) j n.toNat rfl n.toNat_lt]
  rfl

omit H in
theorem basic_signWrite (S : Sha256) (K : KeyParts) (o0 : XmssBase) (j : Nat) (m : Bytes) (idx : Nat) :
    basicStep S (basicAt K o0 j) (.signWrite m idx) = (basicAt K o0 (idx + 1), .signBody m idx) := by
  rw [basicStep]
  show (({ basicAt K o0 j with sk := idxBytes (idx + 1) ++ (K.sk j).drop 4 } : XmssBase), _) = _
  rw [K.reindex]
  rfl

theorem BasicOk.size (j : Nat) : (basicAt K o0 j).getSignatureSize (basicAt K o0 j).params.wots.w =
    ok (36 + 32 * Spec.lenW w + 32 * o0.height.toNat) := by
  have e2 : (basicAt K o0 j).params.wots.w = w := by
    show o0.params.wots.w = w
    rw [H.hop]; exact H.hp.pw
  rw [e2, Props.C22_signature_size _ w H.hw]
  rfl

theorem BasicOk.hash (j : Nat) : HashFn.ofNat? (basicAt K o0 j).hashFunction = some hf := by
  rw [show (basicAt K o0 j).hashFunction = hf.toNat from H.hof, ofNat?_toNat]

theorem BasicOk.signBody (j idx : Nat) (hi : idx < 2 ^ o0.height.toNat) (m : Bytes) :
    basicStep S (basicAt K o0 j) (.signBody m idx) = (basicAt K o0 j,
      .done (.sig (Spec.signature (hf.prim S) w o0.height.toNat K.skSeed K.skPrf K.ps idx m))) := by
  have hlt := H.pow_lt
  have h24 := H.h24
  have e := basicSignBody_eq S hf o0.params K j idx (by omega) m
  have hx := xmssSignmsg_eq S hf (p := ⟨p, o0.height.toNat⟩) H.hp H.hlen (by simp only; omega) K idx hi H.hroot m
  rw [← H.hop, e] at hx
  have e2 : basicSignBody S hf o0.params (K.sk j) idx m =
      ok (Spec.signature (hf.prim S) w o0.height.toNat K.skSeed K.skPrf K.ps idx m) := by
    cases hb : basicSignBody S hf o0.params (K.sk j) idx m with
    | throw e => rw [hb] at hx; cases hx
    | ub => rw [hb] at hx; cases hx
    | ok d => rw [hb, ok_bind] at hx; cases hx; rw [show o0.params.h = o0.height.toNat by rw [H.hop]]
  rw [basicStep, H.hash, H.size]
  simp only
  rw [show basicSignBody S hf (basicAt K o0 j).params (basicAt K o0 j).sk idx m = _ from e2]
  simp only
  rw [fillBuffer_exact]
  rw [length_signature S hf H.hp H.hlen, H.hp.len]

theorem BasicOk.signBody_oob (j idx : Nat) (hi : 2 ^ o0.height.toNat ≤ idx) (m : Bytes) :
    basicStep S (basicAt K o0 j) (.signBody m idx) = (basicAt K o0 j, .ub) := by
  have h24 := H.h24
  have e2 : basicSignBody S hf o0.params (K.sk j) idx m = ub := by
    simp only [basicSignBody, K.seed_slice, K.prf_slice, K.ps_slice, ok_bind, K.root_slice,
      prf_eq, toByte_eq_be, hMsg_eq, Adrs.setType, Adrs.setOTS, getSeed_eq]
    obtain ⟨b', c', d', e⟩ := wotsSign_spec S hf H.hp (Spec.Hmsg (hf.prim S)
          (Spec.PRF (hf.prim S) K.skPrf (Spec.be 32 idx) ++ K.root ++ Spec.be 32 idx) m) K.skSeed K.ps idx 0 0 0
      (length_Hmsg ..)
    rw [H.hop, e]
    simp only [ok_bind]
    rw [computeAuthpath_oob S hf ⟨p, o0.height.toNat⟩ K.skSeed K.ps H.hlen H.h1 (by simp only; omega) idx hi]
    rfl
  rw [basicStep, H.hash, H.size]
  simp only
  rw [show basicSignBody S hf (basicAt K o0 j).params (basicAt K o0 j).sk idx m = _ from e2]

theorem BasicOk.sign_eq (i : Nat) (hi : i < 2 ^ o0.height.toNat) (m : Bytes) : XmssBasic.sign S (basicAt K o0 i) m =
    ok (Spec.signature (hf.prim S) w o0.height.toNat K.skSeed K.skPrf K.ps i m, basicAt K o0 (i + 1)) := by
  have h24 := H.h24
  exact basicSign_eq S hf H.hw H.hp H.hlen (basicAt K o0 i) H.hop H.hof (show o0.height.toNat ≤ 25 by omega) K H.hroot i hi rfl m

/-- The calls on an `XmssBasic`, by steps. -/
def BasicOk.machine : Machine XmssBase BasicPc where
  step := basicStep S
  start := .start
  done := .done
  idle := Spec.basicIdle
  call := XmssBasic.call S
  good := fun o => ∃ i, i < 2 ^ 32 ∧ o = basicAt K o0 i
  steps := 3
  idle_iff := by
    intro pc
    cases pc <;> simp [Spec.basicIdle]
  done_inj := by intro r r' h; exact BasicPc.done.inj h
  start_ne_done := by intro c r h; cases h
  start_inj := by intro c c' h; exact BasicPc.start.inj h
  done_fix := by intro o r; rfl
  no_restart := by
    intro o pc c
    rw [basicStep.eq_def]
    split <;> (try split) <;> (try split) <;> (try split) <;> simp
  alone := by
    rintro o c ⟨i, hi, rfl⟩
    have hlt := H.pow_lt
    cases c with
    | setIndex n =>
      refine Or.inl ⟨.index n.toNat, basicAt K o0 n.toNat, ?_, ⟨_, n.toNat_lt, rfl⟩, ?_⟩
      · rw [XmssBasic.call, baseSetIndex_eq K (basicAt K o0 i) i n.toNat rfl n.toNat_lt]
        rfl
      · rw [iterStep_one 2 (basic_start_setIndex S K o0 i n)]
        exact iterStep_fix (basicStep S) (_, .done _) rfl 2
    | sign m =>
      rw [iterStep_one 2 (basic_start_sign S K o0 i hi m), iterStep_one 1 (basic_signWrite S K o0 i m i)]
      by_cases hc : i < 2 ^ o0.height.toNat
      · refine Or.inl ⟨.sig (Spec.signature (hf.prim S) w o0.height.toNat K.skSeed K.skPrf K.ps i m), basicAt K o0 (i + 1), ?_,
          ⟨_, by omega, rfl⟩, ?_⟩
        rotate_left
        · rw [iterStep_one 0 (H.signBody (i + 1) i hc m)]
          rfl
        · rw [XmssBasic.call, H.sign_eq i hc m]
      · refine Or.inr ⟨?_, _, _, iterStep_one 0 (H.signBody_oob (i + 1) i (by omega) m), rfl, fun h => h⟩
        have h24 := H.h24
        rw [XmssBasic.call, basicSign_oob S hf H.hw H.hp H.hlen (basicAt K o0 i) H.hop H.hof H.h1
          (show o0.height.toNat ≤ 25 by omega) K i (by show 2 ^ o0.height.toNat ≤ i; omega) hi rfl m]

/-- Two calls of `sign`, both past the reading of the index before either has written it. -/
theorem BasicOk.race (i : Nat) (hi : i < 2 ^ o0.height.toNat) (m1 m2 : Bytes) :
    runSchedule (basicStep S) [0, 1, 0, 1, 0, 1] (basicThreads (basicAt K o0 i) [.sign m1, .sign m2]) =
      (basicAt K o0 (i + 1),
        [.done (.sig (Spec.signature (hf.prim S) w o0.height.toNat K.skSeed K.skPrf K.ps i m1)),
          .done (.sig (Spec.signature (hf.prim S) w o0.height.toNat K.skSeed K.skPrf K.ps i m2))]) := by
  have hlt := H.pow_lt
  simp only [basicThreads, List.map_cons, List.map_nil]
  rw [run_first _ (basic_start_sign S K o0 i (by omega) m1), run_second _ (basic_start_sign S K o0 i (by omega) m2),
    run_first _ (basic_signWrite S K o0 i m1 i), run_second _ (basic_signWrite S K o0 (i + 1) m2 i),
    run_first _ (H.signBody (i + 1) i hi m1), run_second _ (H.signBody (i + 1) i hi m2)]
  rfl

end

/-- The call has written the index. -/
def wrote : BasicPc → Bool
  | .signBody _ _ => true
  | .done _ => true
  | .ub => true
  | _ => false

/-- What holds of one call of `sign` at any point of any schedule: `W` calls have written the index. -/
def BasicPcOk (S : Sha256) (hf : HashFn) (w : Nat) (K : KeyParts) (h i0 n W : Nat) (m : Bytes) : BasicPc → Prop
  | .start c => c = .sign m
  | .signWrite m' idx => m' = m ∧ i0 ≤ idx ∧ idx ≤ i0 + W
  | .signBody m' idx => m' = m ∧ i0 ≤ idx ∧ idx < i0 + n
  | .done r => ∃ idx, i0 ≤ idx ∧ idx < i0 + n ∧ r = .sig (Spec.signature (hf.prim S) w h K.skSeed K.skPrf K.ps idx m)
  | .ub => False

theorem BasicPcOk.mono {S : Sha256} {hf : HashFn} {w : Nat} {K : KeyParts} {h i0 n W W' : Nat} {m : Bytes} {pc : BasicPc}
    (hW : W ≤ W') (hh : BasicPcOk S hf w K h i0 n W m pc) : BasicPcOk S hf w K h i0 n W' m pc := by
  cases pc with
  | signWrite m' idx => obtain ⟨a, b, c⟩ := hh; exact ⟨a, b, by omega⟩
  | start c => exact hh
  | signBody m' idx => exact hh
  | done r => exact hh
  | ub => exact hh

section
variable {S : Sha256} {hf : HashFn} {w : Nat} {K : KeyParts} {p : WotsParams} {k q : Nat} {o0 : XmssBase}
variable (H : BasicOk S hf w K p k q o0)
include H

/-- Calls of `sign` only, interleaved in any way. -/
theorem BasicOk.any_run (msgs : List Bytes) (i0 : Nat) (hn : i0 + msgs.length ≤ 2 ^ o0.height.toNat) (ts : List Nat) :
    ∀ (j : Nat) (pcs : List BasicPc), pcs.length = msgs.length → i0 ≤ j → j ≤ i0 + pcs.countP wrote →
    (∀ (t : Nat) pc, pcs[t]? = some pc → ∃ m, msgs[t]? = some m ∧
      BasicPcOk S hf w K o0.height.toNat i0 msgs.length (pcs.countP wrote) m pc) →
    ∃ j' pcs', runSchedule (basicStep S) ts (basicAt K o0 j, pcs) = (basicAt K o0 j', pcs') ∧ pcs'.length = msgs.length ∧
      i0 ≤ j' ∧ j' ≤ i0 + msgs.length ∧
      ∀ (t : Nat) pc, pcs'[t]? = some pc → ∃ m, msgs[t]? = some m ∧
        BasicPcOk S hf w K o0.height.toNat i0 msgs.length (pcs'.countP wrote) m pc := by
  have hlt := H.pow_lt
  induction ts with
  | nil =>
    intro j pcs hl h1 h2 h
    have := List.countP_le_length (p := wrote) (l := pcs)
    exact ⟨j, pcs, rfl, hl, h1, by omega, h⟩
  | cons t ts ih =>
    intro j pcs hl h1 h2 h
    rw [runSchedule]
    cases hpc : pcs[t]? with
    | none => exact ih j pcs hl h1 h2 h
    | some pc =>
      obtain ⟨m, hm, hok⟩ := h t pc hpc
      obtain ⟨htl, hget⟩ := List.getElem?_eq_some_iff.mp hpc
      have hcnt : ∀ pc', (pcs.set t pc').countP wrote =
          pcs.countP wrote - (if wrote pc then 1 else 0) + (if wrote pc' then 1 else 0) := by
        intro pc'
        rw [List.countP_set htl, hget]
      have hpos : wrote pc = true → 1 ≤ pcs.countP wrote := by
        intro hw
        exact List.countP_pos_iff.mpr ⟨pc, List.mem_of_getElem? hpc, hw⟩
      have hle := List.countP_le_length (p := wrote) (l := pcs)
      have key : ∀ j' pc', basicStep S (basicAt K o0 j) pc = (basicAt K o0 j', pc') → i0 ≤ j' →
          j' ≤ i0 + (pcs.set t pc').countP wrote → (wrote pc = true → wrote pc' = true) →
          BasicPcOk S hf w K o0.height.toNat i0 msgs.length ((pcs.set t pc').countP wrote) m pc' →
          ∃ j' pcs', runSchedule (basicStep S) ts ((basicStep S (basicAt K o0 j) pc).1,
              pcs.set t (basicStep S (basicAt K o0 j) pc).2) = (basicAt K o0 j', pcs') ∧ pcs'.length = msgs.length ∧
            i0 ≤ j' ∧ j' ≤ i0 + msgs.length ∧
            ∀ (t : Nat) pc, pcs'[t]? = some pc → ∃ m, msgs[t]? = some m ∧
              BasicPcOk S hf w K o0.height.toNat i0 msgs.length (pcs'.countP wrote) m pc := by
        intro j' pc' e k1 k2 kw k3
        rw [e]
        refine ih j' _ (by simpa using hl) k1 k2 ?_
        intro u pc2 hu
        rw [List.getElem?_set] at hu
        by_cases htu : t = u
        · subst htu
          rw [if_pos rfl, if_pos htl] at hu
          cases hu
          exact ⟨m, hm, k3⟩
        · rw [if_neg htu] at hu
          obtain ⟨m', g1, g2⟩ := h u pc2 hu
          refine ⟨m', g1, g2.mono ?_⟩
          rw [hcnt pc']
          cases hw : wrote pc with
          | false => simp
          | true => rw [kw hw]; have := hpos hw; simp; omega
      have hcase : ∀ pc', wrote pc = false → wrote pc' = false → (pcs.set t pc').countP wrote = pcs.countP wrote := by
        intro pc' a b; rw [hcnt, a, b]; simp
      cases pc with
      | start c =>
        cases hok
        refine key j _ (basic_start_sign S K o0 j (by omega) m) h1 ?_ (by intro hx; cases hx) ?_
        · rw [hcase _ rfl rfl]; exact h2
        · rw [hcase _ rfl rfl]; exact ⟨rfl, h1, h2⟩
      | signWrite m' idx =>
        obtain ⟨rfl, g1, g2⟩ := hok
        have hc1 : (pcs.set t (.signBody m' idx)).countP wrote = pcs.countP wrote + 1 := by
          rw [hcnt]; simp [wrote]
        have hle2 := List.countP_le_length (p := wrote) (l := pcs.set t (.signBody m' idx))
        rw [List.length_set] at hle2
        refine key (idx + 1) _ (basic_signWrite S K o0 j m' idx) (by omega) (by omega) (by intro hx; cases hx) ?_
        exact ⟨rfl, g1, by omega⟩
      | signBody m' idx =>
        obtain ⟨rfl, g1, g2⟩ := hok
        have hc1 : ∀ s, (pcs.set t (.done s)).countP wrote = pcs.countP wrote := by
          intro s
          have := hpos rfl
          rw [hcnt]; simp [wrote]; omega
        refine key j _ (H.signBody j idx (by omega) m') h1 (by rw [hc1]; exact h2) (fun _ => rfl) ?_
        exact ⟨idx, g1, g2, rfl⟩
      | done r =>
        have hc1 : (pcs.set t (.done r)).countP wrote = pcs.countP wrote := by
          have := hpos rfl
          rw [hcnt]; simp [wrote]; omega
        exact key j _ rfl h1 (by rw [hc1]; exact h2) (fun _ => rfl) hok
      | ub => exact hok.elim

end

end Qrl
