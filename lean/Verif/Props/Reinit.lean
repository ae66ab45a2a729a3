import Verif.Props.Fast
import Verif.Spec.Reinit
/-!
# C44: histories with the public `initialize_tree(w)`
-/

namespace Qrl.Props

open Outcome Spec

/-- The object is the canonical one for parameter `w` at index `i`. -/
def Canon (S : Sha256) (f : HashFn) (seed : Bytes) (height : UInt8) (af w i : Nat) (o : XmssFast) : Prop :=
  ∃ (hw : w = 2 ∨ w = 4 ∨ w = 16 ∨ w = 256) (p : WotsParams) (k q : Nat) (o1 : XmssFast),
    FastOk S f w (keyOf S f w height.toNat (lenW_pos hw) seed) p k q o1 ∧ o1.height = height ∧ o1.seed = seed ∧
    o1.addrFormat = af ∧ i ≤ 2 ^ height.toNat ∧ o = fastAt S f (keyOf S f w height.toNat (lenW_pos hw) seed) o1 i

theorem canon_call {S : Sha256} {f : HashFn} {seed : Bytes} {height : UInt8} {af w i : Nat} {o : XmssFast}
    (hs : seed.length = 48) (h : Canon S f seed height af w i o) (c : FullCall) (hc : SupportedW [c]) :
    ∃ o', o.fullCall S c = some ((Spec.fullCall (2 ^ height.toNat) (fun w => seedSignature S f w height.toNat seed) w i c).1, o') ∧
      Canon S f seed height af (Spec.fullCall (2 ^ height.toNat) (fun w => seedSignature S f w height.toNat seed) w i c).2.1
        (Spec.fullCall (2 ^ height.toNat) (fun w => seedSignature S f w height.toNat seed) w i c).2.2 o' := by
  obtain ⟨hw, p, k, q, o1, H, rfl, e2, e3, hi, rfl⟩ := h
  cases c with
  | basic c =>
    refine ⟨_, ?_, ⟨hw, p, k, q, o1, H, rfl, e2, e3, ?_, rfl⟩⟩
    · rw [XmssFast.fullCall, H.call i hi c]; rfl
    · show (counterCall _ _ i c).2 ≤ _
      cases c with
      | setIndex n => rw [counterCall]; split <;> simp only <;> omega
      | sign m => rw [counterCall]; split <;> simp only <;> omega
  | initializeTree w' =>
    have hw' := hc w' (by simp)
    obtain ⟨p', k', q', st', hp', e, hok⟩ := initTree_eq S seed o1.height f hw' hs H.hh
    obtain ⟨h4, h30, he⟩ := H.hh
    have hcnd : ¬ (2 ≥ o1.height.toNat ∨ (o1.height.toNat - 2) % 2 ≠ 0) := by omega
    have a1 : (fastAt S f (keyOf S f w o1.height.toNat (lenW_pos hw) seed) o1 i).height = o1.height := rfl
    have a2 : (fastAt S f (keyOf S f w o1.height.toNat (lenW_pos hw) seed) o1 i).hashFunction = f.toNat := H.hof
    have a3 : (fastAt S f (keyOf S f w o1.height.toNat (lenW_pos hw) seed) o1 i).seed = seed := e2
    have a4 : (fastAt S f (keyOf S f w o1.height.toNat (lenW_pos hw) seed) o1 i).addrFormat = af := e3
    generalize fastAt S f (keyOf S f w o1.height.toNat (lenW_pos hw) seed) o1 i = o at a1 a2 a3 a4
    have H2 := hok { o with
        params := ⟨p', o1.height.toNat⟩
        sk := (keyOf S f w' o1.height.toNat (lenW_pos hw') seed).sk 0
        state := st' } rfl a2 a1 rfl rfl
    refine ⟨{ o with
        params := ⟨p', o1.height.toNat⟩
        sk := (keyOf S f w' o1.height.toNat (lenW_pos hw') seed).sk 0
        state := st' }, ?_, hw', p', k', q', { o with
        params := ⟨p', o1.height.toNat⟩
        sk := (keyOf S f w' o1.height.toNat (lenW_pos hw') seed).sk 0
        state := st' }, H2, a1, a3, a4, Nat.zero_le _, ?_⟩
    · rw [XmssFast.fullCall, XmssFast.initializeTree]
      simp only [a1, a2, a3]
      rw [if_neg hcnd, e]
      rfl
    · exact (fastAt_zero H2).symm

theorem canon_run {S : Sha256} {f : HashFn} {seed : Bytes} {height : UInt8} {af : Nat} (hs : seed.length = 48)
    (cs : List FullCall) : ∀ {w i : Nat} {o : XmssFast}, Canon S f seed height af w i o → SupportedW cs →
    ∃ o', runFull S o cs = some ((Spec.fullRun (2 ^ height.toNat) (fun w => seedSignature S f w height.toNat seed) w i cs).1, o') ∧
      Canon S f seed height af (Spec.fullRun (2 ^ height.toNat) (fun w => seedSignature S f w height.toNat seed) w i cs).2.1
        (Spec.fullRun (2 ^ height.toNat) (fun w => seedSignature S f w height.toNat seed) w i cs).2.2 o' := by
  induction cs with
  | nil => intro w i o h _; exact ⟨o, rfl, h⟩
  | cons c cs ih =>
    intro w i o h hc
    obtain ⟨o1, e1, h1⟩ := canon_call hs h c (fun w hw => hc w (by rw [List.mem_singleton] at hw; rw [hw]; simp))
    obtain ⟨o2, e2, h2⟩ := ih h1 (fun w hw => hc w (List.mem_cons_of_mem _ hw))
    refine ⟨o2, ?_, h2⟩
    rw [runFull, e1]
    simp only
    rw [e2]
    rfl

theorem canon_fresh {S : Sha256} {seed : Bytes} {height : UInt8} {hf : HashFn} {af : Nat} {o0 : XmssFast}
    (h : XmssFast.new S seed height hf.toNat af = ok o0) : Canon S hf seed height af 16 0 o0 := by
  obtain ⟨hs, hg, f, hf1, hf2, e1, e2, e3, e4, p, k, q, hp, e5, H⟩ := fast_fresh h
  rw [ofNat?_toNat] at hf2
  cases hf2
  exact ⟨by omega, p, k, q, o0, H, e1, e4, e3, Nat.zero_le _, (fastAt_zero H).symm⟩

/-- C44. On any history of `setIndex`, `sign` and `initialize_tree(w)` with `w` among 2, 4, 16, 256, a fresh
`XmssFast` behaves exactly like the ideal object: same replies, never undefined behaviour. -/
theorem C44_full_refines (S : Sha256) (seed : Bytes) (height : UInt8) (hf : HashFn) (af : Nat) (o0 : XmssFast)
    (hnew : XmssFast.new S seed height hf.toNat af = ok o0) (cs : List FullCall) (hw : SupportedW cs) :
    ∃ o, runFull S o0 cs =
        some ((Spec.fullRun (2 ^ height.toNat) (fun w => seedSignature S hf w height.toNat seed) 16 0 cs).1, o) ∧
      o.getIndex = ok (Spec.fullRun (2 ^ height.toNat) (fun w => seedSignature S hf w height.toNat seed) 16 0 cs).2.2 ∧
      o.params.wots.w = (Spec.fullRun (2 ^ height.toNat) (fun w => seedSignature S hf w height.toNat seed) 16 0 cs).2.1 := by
  have hs := (fast_fresh hnew).1
  obtain ⟨o, e, h⟩ := canon_run hs cs (canon_fresh hnew) hw
  refine ⟨o, e, ?_⟩
  obtain ⟨hw, p, k, q, o1, H, e1, e2, e3, hi, e4⟩ := h
  subst e1
  rw [e4]
  refine ⟨H.getIndex _ hi, ?_⟩
  show o1.params.wots.w = _
  rw [H.hop]
  exact H.hp.pw

/-- C44. After any such history, if the index is below `2^height` then `sign` succeeds and the signature, of the size
for the current parameter `w`, verifies with `w` under the current `getPK()`; that public key is the root of the tree
for `w`, so it is another key after `initialize_tree` with another `w`. -/
theorem C44_full_sign_verifies (S : Sha256) (seed : Bytes) (height : UInt8) (hf : HashFn) (af : Nat) (o0 : XmssFast)
    (hnew : XmssFast.new S seed height hf.toNat af = ok o0) (cs : List FullCall) (hw : SupportedW cs)
    (rs : List FullReply) (o : XmssFast) (hrun : runFull S o0 cs = some (rs, o)) (i : Nat) (hi : o.getIndex = ok i)
    (hlt : i < 2 ^ height.toNat) (msg : Bytes) :
    ∃ sig o' pk, o.sign S msg = .ret sig o' ∧ sigIndex sig = i ∧ o'.getIndex = ok (i + 1) ∧
      o.getSignatureSize o.params.wots.w = ok sig.length ∧ o.getPK = ok pk ∧
      verify S msg sig pk o.params.wots.w = ok true ∧
      o.getRoot = ok (Spec.node (hf.prim S) o.params.wots.w (Spec.lenW o.params.wots.w) ((shake256 96 seed).take 32)
        ((shake256 96 seed).drop 64) height.toNat 0) := by
  have hs := (fast_fresh hnew).1
  obtain ⟨o', e, h⟩ := canon_run hs cs (canon_fresh hnew) hw
  rw [hrun] at e
  obtain ⟨rfl, rfl⟩ := e
  generalize (Spec.fullRun (2 ^ height.toNat) (fun w => seedSignature S hf w height.toNat seed) 16 0 cs).2.1 = w at h
  generalize (Spec.fullRun (2 ^ height.toNat) (fun w => seedSignature S hf w height.toNat seed) 16 0 cs).2.2 = j at h
  obtain ⟨hw, p, k, q, o1, H, rfl, e2, e3, hj, rfl⟩ := h
  rw [H.getIndex j hj] at hi
  cases hi
  have h32 := H.pow_lt
  have hpw : (fastAt S hf (keyOf S hf w o1.height.toNat (lenW_pos hw) seed) o1 i).params.wots.w = w := by
    show o1.params.wots.w = w
    rw [H.hop]; exact H.hp.pw
  obtain ⟨pk, hpk, hv⟩ := verify_honest S hf hw (keyOf S hf w o1.height.toNat (lenW_pos hw) seed)
    (fastAt S hf (keyOf S hf w o1.height.toNat (lenW_pos hw) seed) o1 i).toXmssBase i rfl H.hof H.hh H.hroot i
    hlt msg
  refine ⟨_, _, pk, H.sign_ok i hlt msg, ?_, H.getIndex (i + 1) hlt, ?_, hpk, ?_, ?_⟩
  · exact sigIndex_signature S hf w _ _ _ _ i msg (by omega)
  · rw [hpw, C22_signature_size _ w hw, length_signature S hf H.hp H.hlen, H.hp.len]; rfl
  · rw [hpw]; exact hv
  · rw [hpw]
    exact ((keyOf S hf w o1.height.toNat (lenW_pos hw) seed).root_slice i).trans (congrArg ok H.hroot)

/-- A history with a change of parameter: the hypotheses are met. -/
example : ∃ o0 rs o, XmssFast.new toySha zeroSeed 4 1 0 = ok o0 ∧
    runFull toySha o0 [.basic (.sign [1]), .initializeTree 4, .basic (.setIndex 3), .basic (.sign [2])] = some (rs, o) ∧
    o.getIndex = ok 4 ∧ o.params.wots.w = 4 := by
  obtain ⟨o0, h⟩ := (C39_fast_succeeds toySha zeroSeed 4 1 0).mpr ⟨rfl, goodHeight4, by omega⟩
  obtain ⟨o, h1, h2, h3⟩ := C44_full_refines toySha zeroSeed 4 .shake_128 0 o0 h
    [.basic (.sign [1]), .initializeTree 4, .basic (.setIndex 3), .basic (.sign [2])] (by
      intro w hw; simp at hw; omega)
  exact ⟨o0, _, o, h, h1, h2, h3⟩

end Qrl.Props
