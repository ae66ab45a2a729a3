import Verif.Proof.FastAny
import Verif.Props.LossyW
import Verif.Props.Reinit
import Verif.Spec.ReinitAny
/-!
# C44 and C67: `XmssFast` histories with `initialize_tree(w)` for every `w`
-/

namespace Qrl.Props

open Outcome Spec

/-- The signature with one-time key `i` of the key derived from `seed`, for any usable `w`; for the four supported
values it is `seedSignature` (`C44_supported_agree`). -/
def seedSignatureAny (S : Sha256) (f : HashFn) (h : Nat) (seed : Bytes) (w i : Nat) (msg : Bytes) : Bytes :=
  Spec.signatureAny (f.prim S) w h ((shake256 96 seed).take 32) (((shake256 96 seed).drop 32).take 32)
    ((shake256 96 seed).drop 64) i msg

/-- The object is the canonical one for parameter `w` at index `i`. -/
def CanonAny (S : Sha256) (f : HashFn) (seed : Bytes) (height : UInt8) (af w i : Nat) (o : XmssFast) : Prop :=
  ∃ (p : WotsParams) (hl : 1 ≤ p.len) (o1 : XmssFast),
    FastAny S f w (keyP S f p.w p.len height.toNat hl seed) p o1 ∧ o1.height = height ∧ o1.seed = seed ∧
    o1.addrFormat = af ∧ i ≤ 2 ^ height.toNat ∧ o = fastAt S f (keyP S f p.w p.len height.toNat hl seed) o1 i

theorem bad_of_not_usable {w : Nat} {p : WotsParams} (h : wotsSetParams w = ok p) (hu : ¬ UsableW w) : BadW w := by
  have hc : ¬ CrashW w := fun hc => by rw [wotsSetParams_crash hc] at h; cases h
  rw [BadW]; rw [UsableW] at hu; rw [CrashW] at hc; omega

theorem anyParams_of {w : Nat} {p : WotsParams} (h : wotsSetParams w = ok p) (hu : UsableW w) :
    ∃ k q, AnyParams w p k q := by
  obtain ⟨p', k, q, hp⟩ := anyParams hu
  have := hp.set
  rw [h] at this
  cases this
  exact ⟨k, q, hp⟩

theorem canonAny_call {S : Sha256} {f : HashFn} {seed : Bytes} {height : UInt8} {af w i : Nat} {o : XmssFast}
    (hs : seed.length = 48) (h : CanonAny S f seed height af w i o) (c : FullCall) :
    match fullCallAny (2 ^ height.toNat) (seedSignatureAny S f height.toNat seed) w i c with
    | none => o.fullCall S c = none
    | some (r, w', i') => ∃ o', o.fullCall S c = some (r, o') ∧ CanonAny S f seed height af w' i' o' := by
  obtain ⟨p, hl, o1, H, rfl, e2, e3, hi, rfl⟩ := h
  cases c with
  | basic c =>
    cases c with
    | setIndex n =>
      rw [fullCallAny]
      by_cases hc : n.toNat < 2 ^ o1.height.toNat ∧ i ≤ n.toNat
      · rw [if_pos hc]
        refine ⟨_, ?_, p, hl, o1, H, rfl, e2, e3, by omega, rfl⟩
        rw [XmssFast.fullCall, XmssFast.call, H.setIndex_ok i n.toNat hc.2 hc.1]
      · rw [if_neg hc]
        refine ⟨_, ?_, p, hl, o1, H, rfl, e2, e3, hi, rfl⟩
        rw [XmssFast.fullCall, XmssFast.call, H.setIndex_throw i n.toNat hi (by omega)]
    | sign m =>
      rw [fullCallAny]
      by_cases hc : i < 2 ^ o1.height.toNat
      · rw [if_pos hc]
        by_cases hu : UsableW w
        · rw [if_pos hu]
          obtain ⟨k, q, hp⟩ := anyParams_of H.set hu
          refine ⟨_, ?_, p, hl, o1, H, rfl, e2, e3, by omega, rfl⟩
          rw [XmssFast.fullCall, XmssFast.call, H.sign_ok hp i hc m]
          rfl
        · rw [if_neg hu]
          simp only
          rw [XmssFast.fullCall, XmssFast.call, H.sign_ub (bad_of_not_usable H.set hu) i hc m]
      · rw [if_neg hc]
        refine ⟨_, ?_, p, hl, o1, H, rfl, e2, e3, hi, rfl⟩
        have : i = 2 ^ o1.height.toNat := by omega
        subst this
        rw [XmssFast.fullCall, XmssFast.call, H.sign_throw m]
  | initializeTree w' =>
    obtain ⟨h4, h30, he⟩ := H.hh
    have hcnd : ¬ (2 ≥ o1.height.toNat ∨ (o1.height.toNat - 2) % 2 ≠ 0) := by omega
    have a1 : (fastAt S f (keyP S f p.w p.len o1.height.toNat hl seed) o1 i).height = o1.height := rfl
    have a2 : (fastAt S f (keyP S f p.w p.len o1.height.toNat hl seed) o1 i).hashFunction = f.toNat := H.hof
    have a3 : (fastAt S f (keyP S f p.w p.len o1.height.toNat hl seed) o1 i).seed = seed := e2
    have a4 : (fastAt S f (keyP S f p.w p.len o1.height.toNat hl seed) o1 i).addrFormat = af := e3
    generalize fastAt S f (keyP S f p.w p.len o1.height.toNat hl seed) o1 i = o at a1 a2 a3 a4
    rw [fullCallAny]
    by_cases hc : CrashW w'
    · rw [if_pos hc]
      simp only
      rw [XmssFast.fullCall, XmssFast.initializeTree]
      simp only [a1, a2, a3]
      rw [if_neg hcnd, initTree, xmssSetParams, if_neg hcnd, wotsSetParams_crash hc]
      rfl
    · rw [if_neg hc]
      obtain ⟨p', hp'⟩ := wotsSetParams_fine hc
      have hl' : 1 ≤ p'.len := (wotsSetParams_ok hp').2.2.2.1
      obtain ⟨st', e, hok⟩ := initTree_any S seed o1.height f hp' hl' hs H.hh
      have H2 := hok { o with
          params := ⟨p', o1.height.toNat⟩
          sk := (keyP S f p'.w p'.len o1.height.toNat hl' seed).sk 0
          state := st' } rfl a2 a1 rfl rfl
      refine ⟨{ o with
          params := ⟨p', o1.height.toNat⟩
          sk := (keyP S f p'.w p'.len o1.height.toNat hl' seed).sk 0
          state := st' }, ?_, p', hl', { o with
          params := ⟨p', o1.height.toNat⟩
          sk := (keyP S f p'.w p'.len o1.height.toNat hl' seed).sk 0
          state := st' }, H2, a1, a3, a4, Nat.zero_le _, ?_⟩
      · rw [XmssFast.fullCall, XmssFast.initializeTree]
        simp only [a1, a2, a3]
        rw [if_neg hcnd, e]
        rfl
      · exact (fastAny_zero H2).symm

theorem canonAny_run {S : Sha256} {f : HashFn} {seed : Bytes} {height : UInt8} {af : Nat} (hs : seed.length = 48)
    (cs : List FullCall) : ∀ {w i : Nat} {o : XmssFast}, CanonAny S f seed height af w i o →
    match fullRunAny (2 ^ height.toNat) (seedSignatureAny S f height.toNat seed) w i cs with
    | none => runFull S o cs = none
    | some (rs, w', i') => ∃ o', runFull S o cs = some (rs, o') ∧ CanonAny S f seed height af w' i' o' := by
  induction cs with
  | nil => intro w i o h; exact ⟨o, rfl, h⟩
  | cons c cs ih =>
    intro w i o h
    have h1 := canonAny_call hs h c
    rw [fullRunAny, runFull]
    cases hc : fullCallAny (2 ^ height.toNat) (seedSignatureAny S f height.toNat seed) w i c with
    | none =>
      rw [hc] at h1
      simp only at h1 ⊢
      rw [h1]
    | some x =>
      obtain ⟨r, w', i'⟩ := x
      rw [hc] at h1
      obtain ⟨o', e1, h2⟩ := h1
      have h3 := ih h2
      simp only
      rw [e1]
      simp only
      cases hr : fullRunAny (2 ^ height.toNat) (seedSignatureAny S f height.toNat seed) w' i' cs with
      | none =>
        rw [hr] at h3
        simp only at h3 ⊢
        rw [h3]
      | some y =>
        obtain ⟨rs, w'', i''⟩ := y
        rw [hr] at h3
        obtain ⟨o'', e2, h4⟩ := h3
        simp only
        rw [e2]
        exact ⟨o'', rfl, h4⟩

theorem canonAny_fresh {S : Sha256} {seed : Bytes} {height : UInt8} {hf : HashFn} {af : Nat} {o0 : XmssFast}
    (h : XmssFast.new S seed height hf.toNat af = ok o0) : CanonAny S hf seed height af 16 0 o0 := by
  obtain ⟨hs, hg, f, hf1, hf2, e1, e2, e3, e4, p, k, q, hp, e5, H⟩ := fast_fresh h
  rw [ofNat?_toNat] at hf2
  cases hf2
  have hl : 1 ≤ p.len := H.hlen
  have hpl : lenW 16 = p.len := H.hp.len
  have hpw : p.w = 16 := H.hp.pw
  have hsk : o0.sk = (keyP S hf p.w p.len height.toNat hl seed).sk 0 := by
    rw [H.hsk, ← keyOf_sk0, ← keyP_sk0, hpl, hpw]
  refine ⟨p, hl, o0, ⟨hp, hl, H.hop, H.hof, H.hh, by rw [e1]; rfl, hsk, H.init⟩, e1, e4, e3, Nat.zero_le _, ?_⟩
  have e : stAt S hf o0.params (keyP S hf p.w p.len height.toNat hl seed).skSeed
    (keyP S hf p.w p.len height.toNat hl seed).ps o0.state 0 = o0.state := rfl
  rw [fastAt, Nat.zero_min, e, ← hsk]

/-- C44. On any history of `setIndex`, `sign` and `initialize_tree(w)`, with any values of `w` whatsoever, a fresh
`XmssFast` behaves exactly like the ideal object, undefined behaviour included: the history is undefined exactly when
it sets a `w` in `CrashW` or signs below `2^height` while the current `w` is not in `UsableW`; otherwise the replies, the
parameter and the index are those of the ideal object. -/
theorem C44_total (S : Sha256) (seed : Bytes) (height : UInt8) (hf : HashFn) (af : Nat) (o0 : XmssFast)
    (hnew : XmssFast.new S seed height hf.toNat af = ok o0) (cs : List FullCall) :
    match fullRunAny (2 ^ height.toNat) (seedSignatureAny S hf height.toNat seed) 16 0 cs with
    | none => runFull S o0 cs = none
    | some (rs, w, i) => ∃ o, runFull S o0 cs = some (rs, o) ∧ o.getIndex = ok i ∧ o.params.wots.w = w := by
  have hs := (fast_fresh hnew).1
  have h := canonAny_run hs cs (canonAny_fresh hnew)
  cases hr : fullRunAny (2 ^ height.toNat) (seedSignatureAny S hf height.toNat seed) 16 0 cs with
  | none => rw [hr] at h; exact h
  | some x =>
    obtain ⟨rs, w, i⟩ := x
    rw [hr] at h
    obtain ⟨o, e, p, hl, o1, H, e1, e2, e3, hi, e4⟩ := h
    refine ⟨o, e, ?_, ?_⟩
    · subst e1; rw [e4]; exact H.getIndex _ hi
    · rw [e4]
      show o1.params.wots.w = w
      rw [H.hop]; exact H.pw

/-- C44. For the four supported values the signature of `C44_total` is the one of `C44_full_refines`. -/
theorem C44_supported_agree (S : Sha256) (f : HashFn) (h : Nat) (seed : Bytes) (w i : Nat)
    (hw : w = 2 ∨ w = 4 ∨ w = 16 ∨ w = 256) (msg : Bytes) :
    seedSignatureAny S f h seed w i msg = seedSignature S f w h seed i msg := by
  rw [seedSignatureAny, seedSignature, Spec.signatureAny, Spec.signature]
  simp only [C67_supported_agree w hw _ (show (Spec.digest (f.prim S) _ _ i msg).length = 32 from length_Hmsg ..)]

/-- An honest signature for a usable `w` verifies. -/
theorem verify_honest_any (S : Sha256) (hf : HashFn) {w : Nat} (hu : UsableW w) {p : WotsParams} {k q : Nat}
    (hp : AnyParams w p k q) (K : KeyParts) (o : XmssBase) (i : Nat) (h : o.sk = K.sk i)
    (hof : o.hashFunction = hf.toNat) (hh : GoodHeight o.height)
    (hroot : K.root = Spec.node (hf.prim S) w (Spec.lenW w) K.skSeed K.ps o.height.toNat 0)
    (idx : Nat) (hidx : idx < 2 ^ o.height.toNat) (msg : Bytes) :
    ∃ pk, o.getPK = ok pk ∧
      verify S msg (Spec.signatureAny (hf.prim S) w o.height.toNat K.skSeed K.skPrf K.ps idx msg) pk w = ok true := by
  obtain ⟨f1, f2, f3, f4, f5⟩ := pk_fields K o hf hof hh
  refine ⟨_, getPK_eq K o i h, ?_⟩
  rw [C67_verify_spec S msg _ _ w hu, if_pos]
  · rw [f2, ofNat?_toNat]
    simp only [f3, f4, f5]
    have := rootFromSigAny_signatureAny S hf hp o.height.toNat (by have := hh.2.1; omega) K.skSeed K.skPrf K.ps idx hidx msg
    rw [← hroot] at this
    simp [this]
  · exact ⟨f1, by rw [f3]; exact hh.1, by rw [f3, length_signatureAny S hf hp, hp.len]⟩

theorem sigIndex_signatureAny (S : Sha256) (hf : HashFn) (w h : Nat) (sk skPrf ps : Bytes) (idx : Nat) (msg : Bytes)
    (hi : idx < 2 ^ 32) : sigIndex (Spec.signatureAny (hf.prim S) w h sk skPrf ps idx msg) = idx := by
  rw [sigIndex, Spec.signatureAny]
  simp only [List.append_assoc]
  rw [List.take_append, List.take_of_length_le (Nat.le_of_eq (length_be ..)), length_be, Nat.sub_self, List.take_zero,
    List.append_nil, byteVal_be, Nat.mod_eq_of_lt (by omega)]

/-- C44. After any history that is not undefined, with the index below `2^height`: if the current `w` is in `UsableW` the
next `sign` succeeds and its signature verifies with `w` under the current `getPK()`; otherwise the next `sign` is
undefined behaviour. -/
theorem C44_any_sign (S : Sha256) (seed : Bytes) (height : UInt8) (hf : HashFn) (af : Nat) (o0 : XmssFast)
    (hnew : XmssFast.new S seed height hf.toNat af = ok o0) (cs : List FullCall) (rs : List FullReply) (o : XmssFast)
    (hrun : runFull S o0 cs = some (rs, o)) (i : Nat) (hi : o.getIndex = ok i) (hlt : i < 2 ^ height.toNat)
    (msg : Bytes) :
    (UsableW o.params.wots.w → ∃ sig o' pk, o.sign S msg = .ret sig o' ∧ sigIndex sig = i ∧ o'.getIndex = ok (i + 1) ∧
      o.getSignatureSize o.params.wots.w = ok sig.length ∧ o.getPK = ok pk ∧ o'.getPK = ok pk ∧
      verify S msg sig pk o.params.wots.w = ok true) ∧
    (¬ UsableW o.params.wots.w → o.sign S msg = .ub) := by
  have hs := (fast_fresh hnew).1
  have h := canonAny_run hs cs (canonAny_fresh hnew)
  cases hr : fullRunAny (2 ^ height.toNat) (seedSignatureAny S hf height.toNat seed) 16 0 cs with
  | none => rw [hr] at h; simp only at h; rw [hrun] at h; cases h
  | some x =>
    obtain ⟨rs', w, j⟩ := x
    rw [hr] at h
    obtain ⟨o', e, p, hl, o1, H, e1, e2, e3, hj, e4⟩ := h
    rw [hrun] at e
    obtain ⟨-, rfl⟩ := e
    subst e1
    have hpw : o.params.wots.w = w := by
      rw [e4]
      show o1.params.wots.w = w
      rw [H.hop]; exact H.pw
    have hji : j = i := by
      rw [e4, H.getIndex j hj] at hi
      exact Outcome.ok.inj hi
    subst hji
    rw [hpw]
    constructor
    · intro hu
      obtain ⟨k, q, hp⟩ := anyParams_of H.set hu
      have h32 := H.pow_lt
      have h30 := H.hh.2.1
      obtain ⟨pk, hpk, hv⟩ := verify_honest_any S hf hu hp (keyP S hf p.w p.len o1.height.toNat hl seed)
        (fastAt S hf (keyP S hf p.w p.len o1.height.toNat hl seed) o1 j).toXmssBase j rfl H.hof H.hh
        (by rw [hp.len, H.hroot, hp.pw]; rfl) j hlt msg
      subst e4
      refine ⟨_, _, pk, H.sign_ok hp j hlt msg, ?_, H.getIndex (j + 1) hlt, ?_, hpk, ?_, hv⟩
      · exact sigIndex_signatureAny S hf w _ _ _ _ j msg (by omega)
      · have hsm := hp.small
        rw [XmssBase.getSignatureSize, base_any hp, ok_bind, length_signatureAny S hf hp]
        rw [Nat.mod_eq_of_lt (by show _ + o1.height.toNat * 32 < _; omega)]
        congr 1
        show _ + o1.height.toNat * 32 = _
        omega
      · rw [← hpk, getPK_eq (keyP S hf p.w p.len o1.height.toNat hl seed) _ (j + 1) rfl,
          getPK_eq (keyP S hf p.w p.len o1.height.toNat hl seed) _ j rfl]
        rfl
    · intro hu
      rw [e4]
      exact H.sign_ub (bad_of_not_usable H.set hu) j hlt msg

/-- C67, refuted for `XmssFast` too: after `initialize_tree(257)` one signature of any message verifies, with `w = 257`
under the object's public key, for every message. -/
theorem C67_fast_authenticates_refuted (S : Sha256) (seed : Bytes) (height : UInt8) (hf : HashFn) (af : Nat)
    (o0 : XmssFast) (hnew : XmssFast.new S seed height hf.toNat af = ok o0) (msg : Bytes) :
    ∃ o sig o' pk, o0.initializeTree S 257 = .ret () o ∧ o.sign S msg = .ret sig o' ∧ o.getPK = ok pk ∧
      ∀ msg', verify S msg' sig pk 257 = ok true := by
  obtain ⟨o, hrun, hi, hw⟩ := C44_total S seed height hf af o0 hnew [.initializeTree 257]
  obtain ⟨sig, o', pk, h1, _, _, _, h2, _, h3⟩ :=
    (C44_any_sign S seed height hf af o0 hnew [.initializeTree 257] _ o hrun 0 hi (Nat.two_pow_pos _) msg).1
      (by rw [hw]; exact usable257)
  refine ⟨o, sig, o', pk, ?_, h1, h2, fun msg' => ?_⟩
  · rw [runFull, XmssFast.fullCall] at hrun
    cases hi : o0.initializeTree S 257 with
    | ub => rw [hi] at hrun; cases hrun
    | raise e o1 => rw [hi] at hrun; simp only [runFull] at hrun; cases hrun
    | ret u o1 => rw [hi] at hrun; simp only [runFull] at hrun; cases hrun; rfl
  · rw [C67_w257 S msg' msg, ← hw]; exact h3

/-- The hypotheses are met, and all three outcomes occur: signing with `w = 5`, undefined signing with `w = 8`,
undefined `initialize_tree(1)`. -/
example : ∃ o0, XmssFast.new toySha zeroSeed 4 1 0 = ok o0 ∧
    (∃ rs o, runFull toySha o0 [.initializeTree 5, .basic (.sign [1]), .initializeTree 8, .basic (.setIndex 3)] = some (rs, o) ∧
      o.getIndex = ok 3 ∧ o.params.wots.w = 8) ∧
    runFull toySha o0 [.basic (.sign [1]), .initializeTree 8, .basic (.setIndex 3), .basic (.sign [2])] = none ∧
    runFull toySha o0 [.initializeTree 1] = none := by
  obtain ⟨o0, h⟩ := (C39_fast_succeeds toySha zeroSeed 4 1 0).mpr ⟨rfl, goodHeight4, by omega⟩
  obtain ⟨o, h1, h2, h3⟩ := C44_total toySha zeroSeed 4 .shake_128 0 o0 h
    [.initializeTree 5, .basic (.sign [1]), .initializeTree 8, .basic (.setIndex 3)]
  exact ⟨o0, h, ⟨_, o, h1, h2, h3⟩, C44_total toySha zeroSeed 4 .shake_128 0 o0 h
    [.basic (.sign [1]), .initializeTree 8, .basic (.setIndex 3), .basic (.sign [2])],
    C44_total toySha zeroSeed 4 .shake_128 0 o0 h [.initializeTree 1]⟩

end Qrl.Props
