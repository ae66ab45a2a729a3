import Verif.Props.BasicFull
import Verif.Props.ReinitAny
/-!
# C46: the simple signer for every Winternitz parameter, over every history

One statement that covers C18 (heights up to 24), C45 (heights from 26 on) and all parameters the constructor accepts.
-/

namespace Qrl.Props

open Outcome

/-- A simple signer with parameters `p` whose `sign` is known at every index behaves like the unchecked counter. -/
theorem loose_of_sign (S : Sha256) (K : KeyParts) (limit : Nat) (hl : limit < 2 ^ 32) (σ : Nat → Bytes → Bytes) (o : XmssBase)
    (hsign : ∀ i < 2 ^ 32, ∀ m, XmssBasic.sign S { o with sk := K.sk i } m =
      if i < limit then ok (σ i m, { o with sk := K.sk (i + 1) }) else ub) (cs : List Call) :
    ∀ i < 2 ^ 32, runCalls (XmssBasic.call S) { o with sk := K.sk i } cs =
        (Spec.looseRun limit σ i cs).map (fun x => (x.1, { o with sk := K.sk x.2 })) ∧
      ∀ rs j, Spec.looseRun limit σ i cs = some (rs, j) → j < 2 ^ 32 := by
  induction cs with
  | nil =>
    intro i hi
    exact ⟨rfl, fun rs j h => by cases h; exact hi⟩
  | cons c cs ih =>
    intro i hi
    cases c with
    | setIndex n =>
      obtain ⟨h1, h2⟩ := ih n.toNat n.toNat_lt
      rw [runCalls, Spec.looseRun]
      simp only [XmssBasic.call, baseSetIndex_eq K { o with sk := K.sk i } i n.toNat rfl n.toNat_lt, Spec.looseCall]
      rw [h1]
      cases hr : Spec.looseRun limit σ n.toNat cs with
      | none => exact ⟨rfl, fun rs j h => by cases h⟩
      | some x => exact ⟨rfl, fun rs j h => by cases h; exact h2 _ _ hr⟩
    | sign m =>
      rw [runCalls, Spec.looseRun]
      simp only [XmssBasic.call, hsign i hi m, Spec.looseCall]
      by_cases hlt : i < limit
      · obtain ⟨h1, h2⟩ := ih (i + 1) (by omega)
        simp only [hlt, if_true]
        rw [h1]
        cases hr : Spec.looseRun limit σ (i + 1) cs with
        | none => exact ⟨rfl, fun rs j h => by cases h⟩
        | some x => exact ⟨rfl, fun rs j h => by cases h; exact h2 _ _ hr⟩
      · simp only [hlt, if_false]
        exact ⟨by trivial, fun rs j h => by cases h⟩

theorem computeAuthpath_tall (S : Sha256) (hf : HashFn) (p : XmssParams) (h1 : 1 ≤ p.wots.len)
    (hh : p.h = 26 ∨ p.h = 28 ∨ p.h = 30) (sk ps : Bytes) (idx a b c d e : Nat) :
    computeAuthpathWots S hf idx sk p ps ⟨0, 0, 0, a, b, c, d, e⟩ = ub := by
  rw [computeAuthpathWots]
  split
  · rfl
  · rename_i hlt
    have h0 : (2 * 2 ^ p.h * 32) % 2 ^ 32 / 32 = 0 := by
      rcases hh with h | h | h
      · rw [h]; decide +kernel
      · rw [h]; decide +kernel
      · rw [h]; decide +kernel
    obtain ⟨m, hm⟩ : ∃ m, 2 ^ p.h = m + 1 := ⟨2 ^ p.h - 1, by have := Nat.two_pow_pos p.h; omega⟩
    simp only [h0, List.replicate_zero]
    obtain ⟨x1, x2, x3, x4, x5, x6, hx⟩ := genLeafWots_eq S hf sk p ps h1 0 0 0 0 0 0 0
    rw [hm, authLeaves]
    simp only [Adrs.derive, Adrs.setType, Adrs.setLtree, Adrs.setOTS]
    rw [hx]
    rfl

/-- `sign` of the simple signer for every parameter at every index. -/
theorem basicSign_total (S : Sha256) (hf : HashFn) {w : Nat} {p : WotsParams} (hp : wotsSetParams w = ok p)
    (o : XmssBase) (hop : o.params = ⟨p, o.height.toNat⟩) (hof : o.hashFunction = hf.toNat) (hh : GoodHeight o.height)
    (K : KeyParts) (hroot : K.root = Spec.node (hf.prim S) w p.len K.skSeed K.ps o.height.toNat 0)
    (i : Nat) (hi : i < 2 ^ 32) (hsk : o.sk = K.sk i) (msg : Bytes) :
    XmssBasic.sign S o msg =
      if i < (if Spec.UsableW w ∧ o.height.toNat ≤ 24 then 2 ^ o.height.toNat else 0) then
        ok (Spec.signatureAny (hf.prim S) w o.height.toNat K.skSeed K.skPrf K.ps i msg, { o with sk := K.sk (i + 1) })
      else ub := by
  obtain ⟨hpw, hl, h1, hlen, h31, h0, hks⟩ := wotsSetParams_ok hp
  obtain ⟨h4, h30, he⟩ := hh
  by_cases hu : Spec.UsableW w
  · obtain ⟨k, q, hany⟩ := anyParams_of hp hu
    by_cases hin : o.height.toNat ≤ 24 ∧ i < 2 ^ o.height.toNat
    · rw [if_pos (show Spec.UsableW w ∧ o.height.toNat ≤ 24 from ⟨hu, hin.1⟩), if_pos hin.2]
      exact basicSign_any S hf hany o hop hof (by omega) K (by rw [hroot, hany.len]) i hin.2 hsk msg
    · rw [if_neg (show ¬ i < _ from by
        by_cases h24 : o.height.toNat ≤ 24
        · rw [if_pos ⟨hu, h24⟩]; omega
        · rw [if_neg (fun h => h24 h.2)]; omega)]
      have hsz : o.getSignatureSize w = ok (36 + 32 * p.len + 32 * o.height.toNat) := by
        have hsm := hany.small
        rw [XmssBase.getSignatureSize, base_any hany, ok_bind, Nat.mod_eq_of_lt (by omega)]
        congr 1; omega
      rw [XmssBasic.sign, show o.params.wots.w = w by rw [hop]; exact hpw, hsz, ok_bind, hof, withHash, ofNat?_toNat]
      simp only
      rw [hsk, hop]
      have : xmssSignmsg S hf ⟨p, o.height.toNat⟩ (K.sk i) msg = ub := by
        simp only [xmssSignmsg, K.idx i hi, K.seed_slice, K.prf_slice, K.ps_slice, ok_bind, K.reindex, K.root_slice,
          prf_eq, toByte_eq_be, hMsg_eq, Adrs.setType, Adrs.setOTS, getSeed_eq]
        obtain ⟨b', c', d', e⟩ := wotsSign_any S hf hany (Spec.Hmsg (hf.prim S)
              (Spec.PRF (hf.prim S) K.skPrf (Spec.be 32 i) ++ K.root ++ Spec.be 32 i) msg) K.skSeed K.ps i 0 0 0
          (length_Hmsg ..)
        rw [e]
        simp only [ok_bind]
        by_cases h24 : o.height.toNat ≤ 24
        · rw [computeAuthpath_oob S hf ⟨p, o.height.toNat⟩ K.skSeed K.ps hlen (by simp only; omega) (by simp only; omega) i
            (by simp only; omega)]
          rfl
        · rw [computeAuthpath_tall S hf ⟨p, o.height.toNat⟩ hlen (by simp only; omega)]
          rfl
      rw [this]; rfl
  · have hb : BadW w := bad_of_not_usable hp hu
    rw [if_neg (show ¬ (Spec.UsableW w ∧ o.height.toNat ≤ 24) from fun h => hu h.1), if_neg (by omega)]
    rw [XmssBasic.sign]
    simp only [XmssBase.getSignatureSize, calculateSignatureBaseSize, hop, hpw, hp, ok_bind]
    rw [hof, withHash, ofNat?_toNat]
    simp only
    rw [hsk]
    simp only [xmssSignmsg, K.idx i hi, K.seed_slice, K.prf_slice, K.ps_slice, ok_bind, K.reindex, K.root_slice,
      prf_eq, toByte_eq_be, hMsg_eq]
    rw [wotsSign, (digits_bad hp hb _ _).1]
    · rfl
    · intro h0
      have := congrArg List.length h0
      rw [length_Hmsg] at this
      cases this

/-- The constructor of the simple signer for every parameter that is not in `CrashW`. -/
theorem basicNew_total (S : Sha256) (seed : Bytes) (height : UInt8) (hf : HashFn) (af w : Nat) {p : WotsParams}
    (hp : wotsSetParams w = ok p) (hl : 1 ≤ p.len) (hs : seed.length = 48) (hh : GoodHeight height) :
    XmssBasic.new S seed height hf.toNat af w =
      ok { params := ⟨p, height.toNat⟩, hashFunction := hf.toNat, addrFormat := af, height := height,
           sk := (keyP S hf w p.len height.toNat hl seed).sk 0, seed := seed } := by
  obtain ⟨hpw, -⟩ := wotsSetParams_ok hp
  obtain ⟨h4, h30, he⟩ := hh
  have hc : ¬ (2 ≥ height.toNat ∨ (height.toNat - 2) % 2 ≠ 0) := by omega
  have hgen : xmssGenkeypair S hf ⟨p, height.toNat⟩ seed = ok ((keyP S hf w p.len height.toNat hl seed).sk 0) := by
    have h48 : (seed.drop 0).take 48 = seed := by simp [← hs]
    rw [xmssGenkeypair, slice_eq_ok (by omega), ok_bind, h48]
    simp only
    rw [treehash_eq S hf ⟨p, height.toNat⟩ _ _ hl height.toNat (by omega) 0 0 0 0 0, ok_bind]
    simp only
    rw [hpw, keyP_sk0 S hf w p.len height.toNat hl]
  simp only [XmssBasic.new, baseCtorCheck, hs, ne_eq, not_true, if_false, show ¬ height.toNat > 254 by omega, ok_bind]
  rw [if_neg hc, xmssSetParams, if_neg hc, hp, ok_bind, ok_bind, withHash, ofNat?_toNat]
  simp only
  rw [hgen]
  rfl

/-- C46. **Every parameter, every height, every history.** For a 48-byte seed, an even height 4..30 and a `w` not in `CrashW`
the constructor returns an object, and on every history of `setIndex` and `sign` that object is the counter without checks of
`Spec.looseRun`, with `2^height` one-time keys if `w` is in `UsableW` and the height is at most 24, and with none otherwise: then
the first `sign` is undefined behaviour. -/
theorem C46_basic_history (S : Sha256) (seed : Bytes) (height : UInt8) (hf : HashFn) (af w : Nat) (hw : ¬ Spec.CrashW w)
    (hs : seed.length = 48) (hh : GoodHeight height) :
    ∃ o0, XmssBasic.new S seed height hf.toNat af w = ok o0 ∧ ∀ cs,
      match Spec.looseRun (if Spec.UsableW w ∧ height.toNat ≤ 24 then 2 ^ height.toNat else 0)
        (seedSignatureAny S hf height.toNat seed w) 0 cs with
      | none => runCalls (XmssBasic.call S) o0 cs = none
      | some (rs, i) => ∃ o, runCalls (XmssBasic.call S) o0 cs = some (rs, o) ∧ o.getIndex = ok i := by
  obtain ⟨p, hp⟩ := wotsSetParams_fine hw
  have hl := (wotsSetParams_ok hp).2.2.2.1
  refine ⟨_, basicNew_total S seed height hf af w hp hl hs hh, fun cs => ?_⟩
  let K := keyP S hf w p.len height.toNat hl seed
  let o : XmssBase := { params := ⟨p, height.toNat⟩, hashFunction := hf.toNat, addrFormat := af, height := height,
                        sk := K.sk 0, seed := seed }
  have h30 := hh.2.1
  have hpw : 2 ^ height.toNat ≤ 2 ^ 30 := Nat.pow_le_pow_right (by omega) h30
  obtain ⟨e1, e2⟩ := loose_of_sign S K (if Spec.UsableW w ∧ height.toNat ≤ 24 then 2 ^ height.toNat else 0)
    (by split <;> omega) (seedSignatureAny S hf height.toNat seed w) o
    (fun i hi m => basicSign_total S hf hp { o with sk := K.sk i } rfl rfl hh K rfl i hi rfl m) cs 0 (by omega)
  have e1' : runCalls (XmssBasic.call S) o cs = _ := e1
  show match Spec.looseRun _ _ 0 cs with
      | none => runCalls (XmssBasic.call S) o cs = none
      | some (rs, i) => ∃ o', runCalls (XmssBasic.call S) o cs = some (rs, o') ∧ o'.getIndex = ok i
  rw [e1']
  cases hr : Spec.looseRun (if Spec.UsableW w ∧ height.toNat ≤ 24 then 2 ^ height.toNat else 0)
    (seedSignatureAny S hf height.toNat seed w) 0 cs with
  | none => rfl
  | some x =>
    obtain ⟨rs, j⟩ := x
    exact ⟨_, rfl, K.getIndex _ j rfl (e2 rs j hr)⟩

/-- The three classes, on one history: `w = 5` at height 4 signs and survives until index 16, `w = 8` and height 26 do not
sign at all. -/
example : (∃ x, Spec.looseRun (if Spec.UsableW 5 ∧ (4 : UInt8).toNat ≤ 24 then 2 ^ (4 : UInt8).toNat else 0)
      (seedSignatureAny toySha .shake_128 4 zeroSeed 5) 0 [.setIndex 15, .sign [1], .setIndex 3, .sign [2]] = some x) ∧
    Spec.looseRun (if Spec.UsableW 5 ∧ (4 : UInt8).toNat ≤ 24 then 2 ^ (4 : UInt8).toNat else 0)
      (seedSignatureAny toySha .shake_128 4 zeroSeed 5) 0 [.setIndex 15, .sign [1], .sign [2]] = none ∧
    Spec.looseRun (if Spec.UsableW 8 ∧ (4 : UInt8).toNat ≤ 24 then 2 ^ (4 : UInt8).toNat else 0)
      (seedSignatureAny toySha .shake_128 4 zeroSeed 8) 0 [.setIndex 15, .sign [1]] = none ∧
    Spec.looseRun (if Spec.UsableW 16 ∧ (26 : UInt8).toNat ≤ 24 then 2 ^ (26 : UInt8).toNat else 0)
      (seedSignatureAny toySha .shake_128 26 zeroSeed 16) 0 [.sign [1]] = none := by
  refine ⟨⟨_, rfl⟩, rfl, rfl, rfl⟩

example : ¬ Spec.CrashW 5 ∧ Spec.UsableW 5 ∧ ¬ Spec.CrashW 8 ∧ ¬ Spec.UsableW 8 := by decide

end Qrl.Props
