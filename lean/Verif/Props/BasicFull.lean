import Verif.Props.Fast
import Verif.Spec.Loose
/-!
# C18, C45: complete description of the simple signer over all histories and heights
-/

namespace Qrl.Props

open Outcome

theorem basic_run_eq (S : Sha256) (hf : HashFn) {w : Nat} (hw : w = 2 ∨ w = 4 ∨ w = 16 ∨ w = 256) {p : WotsParams}
    {k q : Nat} (hp : SpecParams w p k q) (hlen : 1 ≤ p.len) (K : KeyParts) (cs : List Call) :
    ∀ (o : XmssBase) (i : Nat), o.params = ⟨p, o.height.toNat⟩ → o.hashFunction = hf.toNat → 1 ≤ o.height.toNat →
      o.height.toNat ≤ 25 → K.root = Spec.node (hf.prim S) w (Spec.lenW w) K.skSeed K.ps o.height.toNat 0 →
      o.sk = K.sk i → i < 2 ^ 32 →
      runCalls (XmssBasic.call S) o cs = (Spec.looseRun (2 ^ o.height.toNat)
        (Spec.signature (hf.prim S) w o.height.toNat K.skSeed K.skPrf K.ps) i cs).map
          (fun x => (x.1, { o with sk := K.sk x.2 })) ∧
      ∀ rs j, Spec.looseRun (2 ^ o.height.toNat)
        (Spec.signature (hf.prim S) w o.height.toNat K.skSeed K.skPrf K.ps) i cs = some (rs, j) → j < 2 ^ 32 := by
  induction cs with
  | nil =>
    intro o i _ _ _ _ _ hsk hi
    refine ⟨?_, ?_⟩
    · rw [runCalls, Spec.looseRun, Option.map_some, ← hsk]
    · intro rs j h
      rw [Spec.looseRun] at h
      cases h; exact hi
  | cons c cs ih =>
    intro o i hop hof h0 hh hroot hsk hi
    cases c with
    | setIndex n =>
      obtain ⟨h1, h2⟩ := ih { o with sk := K.sk n.toNat } n.toNat hop hof h0 hh hroot rfl n.toNat_lt
      rw [runCalls, Spec.looseRun]
      simp only [XmssBasic.call, baseSetIndex_eq K o i n.toNat hsk n.toNat_lt, Spec.looseCall]
      rw [h1]
      cases hr : Spec.looseRun (2 ^ o.height.toNat)
        (Spec.signature (hf.prim S) w o.height.toNat K.skSeed K.skPrf K.ps) n.toNat cs with
      | none => exact ⟨rfl, fun rs j h => by cases h⟩
      | some x =>
        refine ⟨rfl, fun rs j h => ?_⟩
        cases h
        exact h2 _ _ hr
    | sign m =>
      rcases Nat.lt_or_ge i (2 ^ o.height.toNat) with hlt | hge
      · have : 2 ^ o.height.toNat ≤ 2 ^ 25 := Nat.pow_le_pow_right (by omega) hh
        obtain ⟨h1, h2⟩ := ih { o with sk := K.sk (i + 1) } (i + 1) hop hof h0 hh hroot rfl (by omega)
        rw [runCalls, Spec.looseRun]
        simp only [XmssBasic.call, basicSign_eq S hf hw hp hlen o hop hof hh K hroot i hlt hsk m, Spec.looseCall, hlt,
          if_true]
        rw [h1]
        cases hr : Spec.looseRun (2 ^ o.height.toNat)
          (Spec.signature (hf.prim S) w o.height.toNat K.skSeed K.skPrf K.ps) (i + 1) cs with
        | none => exact ⟨rfl, fun rs j h => by cases h⟩
        | some x =>
          refine ⟨rfl, fun rs j h => ?_⟩
          cases h
          exact h2 _ _ hr
      · rw [runCalls, Spec.looseRun]
        simp only [XmssBasic.call, basicSign_oob S hf hw hp hlen o hop hof h0 hh K i hge hi hsk m, Spec.looseCall,
          show ¬ i < 2 ^ o.height.toNat by omega, if_false]
        exact ⟨rfl, fun rs j h => by cases h⟩

/-- C18. Exactly what a fresh `XmssBasic` (height 4 to 24) does on every history of `setIndex` and `sign`: it is a
counter without checks. The replies are those of `Spec.looseRun`, the index afterwards is its counter, and the history
is undefined behaviour exactly when `Spec.looseRun` says so, that is when `sign` is called at an index of `2^height` or
more. -/
theorem C18_basic_refines (S : Sha256) (seed : Bytes) (height : UInt8) (hf : HashFn) (af w : Nat)
    (hw : w = 2 ∨ w = 4 ∨ w = 16 ∨ w = 256) (hh : GoodHeight height) (h24 : height.toNat ≤ 24)
    (o0 : XmssBase) (hnew : XmssBasic.new S seed height hf.toNat af w = ok o0) (cs : List Call) :
    match Spec.looseRun (2 ^ height.toNat) (seedSignature S hf w height.toNat seed) 0 cs with
    | none => runCalls (XmssBasic.call S) o0 cs = none
    | some (rs, i) => ∃ o, runCalls (XmssBasic.call S) o0 cs = some (rs, o) ∧ o.getIndex = ok i := by
  have hs : seed.length = 48 := by
    apply Classical.byContradiction
    intro hne
    have := (C39_basic_throws S seed height hf.toNat af w hw .invalidArgument).mpr ⟨rfl, Or.inl hne⟩
    rw [this] at hnew; cases hnew
  obtain ⟨p, k, q, hp, h1, h2, e⟩ := basicNew_eq S seed height hf af w hw hs hh
  rw [e] at hnew
  cases hnew
  have h4 := hh.1
  obtain ⟨e1, e2⟩ := basic_run_eq S hf hw hp h1 (keyOf S hf w height.toNat (lenW_pos hw) seed) cs
    { params := ⟨p, height.toNat⟩, hashFunction := hf.toNat, addrFormat := af, height := height, sk := (keyOf S hf w height.toNat (lenW_pos hw) seed).sk 0, seed := seed } 0 rfl rfl
    (show 1 ≤ height.toNat by omega) (show height.toNat ≤ 25 by omega) rfl rfl (by omega)
  rw [e1]
  show match Spec.looseRun (2 ^ height.toNat) (seedSignature S hf w height.toNat seed) 0 cs with
    | none => _
    | some (rs, i) => _
  cases hr : Spec.looseRun (2 ^ height.toNat) (seedSignature S hf w height.toNat seed) 0 cs with
  | none => exact (congrArg _ hr).trans rfl
  | some x =>
    obtain ⟨rs, j⟩ := x
    have hj := e2 rs j hr
    refine ⟨_, (congrArg _ hr).trans rfl, ?_⟩
    exact KeyParts.getIndex (keyOf S hf w height.toNat (lenW_pos hw) seed) _ j rfl hj

/-- C18 fails everywhere: whatever the history so far, at any index `i` below `2^height`, the calls sign, setIndex(i),
sign return two signatures with one-time key `i`, for any two messages. -/
theorem C18_basic_reuse_always (S : Sha256) (seed : Bytes) (height : UInt8) (hf : HashFn) (af w : Nat)
    (hw : w = 2 ∨ w = 4 ∨ w = 16 ∨ w = 256) (hh : GoodHeight height) (h24 : height.toNat ≤ 24)
    (o0 : XmssBase) (hnew : XmssBasic.new S seed height hf.toNat af w = ok o0) (cs : List Call) (rs : List Reply)
    (o : XmssBase) (hrun : runCalls (XmssBasic.call S) o0 cs = some (rs, o)) (i : UInt32)
    (hi : o.getIndex = ok i.toNat) (hlt : i.toNat < 2 ^ height.toNat) (m1 m2 : Bytes) :
    ∃ o' s1 s2, runCalls (XmssBasic.call S) o [.sign m1, .setIndex i, .sign m2] =
        some ([.sig s1, .index i.toNat, .sig s2], o') ∧ sigIndex s1 = i.toNat ∧ sigIndex s2 = i.toNat := by
  have hs : seed.length = 48 := by
    apply Classical.byContradiction
    intro hne
    have := (C39_basic_throws S seed height hf.toNat af w hw .invalidArgument).mpr ⟨rfl, Or.inl hne⟩
    rw [this] at hnew; cases hnew
  obtain ⟨p, k, q, hp, h1, h2, e⟩ := basicNew_eq S seed height hf af w hw hs hh
  rw [e] at hnew
  cases hnew
  have h4 := hh.1
  obtain ⟨j, hj, rfl⟩ := basic_reach S hf hw hp h1 (keyOf S hf w height.toNat (lenW_pos hw) seed) cs _ 0 rs o rfl rfl
    (by simp only; omega) (by simp only; omega) rfl rfl (by omega) hrun
  rw [KeyParts.getIndex (keyOf S hf w height.toNat (lenW_pos hw) seed) _ j rfl hj] at hi
  cases hi
  obtain ⟨e1, e2⟩ := basic_run_eq S hf hw hp h1 (keyOf S hf w height.toNat (lenW_pos hw) seed)
    [.sign m1, .setIndex i, .sign m2] { params := ⟨p, height.toNat⟩, hashFunction := hf.toNat, addrFormat := af, height := height, sk := (keyOf S hf w height.toNat (lenW_pos hw) seed).sk i.toNat, seed := seed } i.toNat rfl rfl
    (by simp only; omega) (by simp only; omega) rfl rfl i.toNat_lt
  have hrun : Spec.looseRun (2 ^ height.toNat) (Spec.signature (hf.prim S) w height.toNat
      (keyOf S hf w height.toNat (lenW_pos hw) seed).skSeed (keyOf S hf w height.toNat (lenW_pos hw) seed).skPrf
      (keyOf S hf w height.toNat (lenW_pos hw) seed).ps) i.toNat [.sign m1, .setIndex i, .sign m2] = some
        ([.sig (seedSignature S hf w height.toNat seed i.toNat m1), .index i.toNat,
          .sig (seedSignature S hf w height.toNat seed i.toNat m2)], i.toNat + 1) := by
    simp only [Spec.looseRun, Spec.looseCall, hlt, if_true]; rfl
  refine ⟨_, _, _, e1.trans ((congrArg _ hrun).trans rfl), ?_, ?_⟩
  · exact sigIndex_signature S hf w _ _ _ _ _ m1 i.toNat_lt
  · exact sigIndex_signature S hf w _ _ _ _ _ m2 i.toNat_lt

/-- C45. At heights 26, 28 and 30 the `XmssBasic` constructor succeeds (for every seed, hash function, `w`), but `sign`
is undefined behaviour for every message at every index: the array for the whole tree gets size 0 (`2·2^h·32`
computed modulo 2^32), or its size overflows `int`. -/
theorem C45_basic_tall (S : Sha256) (seed : Bytes) (height : UInt8) (hf : HashFn) (af w : Nat)
    (hw : w = 2 ∨ w = 4 ∨ w = 16 ∨ w = 256) (hs : seed.length = 48)
    (hh : height = 26 ∨ height = 28 ∨ height = 30) :
    ∃ o, XmssBasic.new S seed height hf.toNat af w = ok o ∧
      ∀ (n : UInt32) (msg : Bytes), XmssBasic.sign S o msg = .ub ∧
        ∃ o', o.setIndex n.toNat = ok (n.toNat, o') ∧ XmssBasic.sign S o' msg = .ub := by
  have hgood : GoodHeight height := by
    rcases hh with rfl | rfl | rfl <;> exact ⟨by decide, by decide, by decide⟩
  obtain ⟨p, k, q, hp, h1, h2, e⟩ := basicNew_eq S seed height hf af w hw hs hgood
  let K := keyOf S hf w height.toNat (lenW_pos hw) seed
  let ob (i : Nat) : XmssBase := { params := ⟨p, height.toNat⟩, hashFunction := hf.toNat, addrFormat := af, height := height, sk := K.sk i, seed := seed }
  have hub : ∀ i, i < 2 ^ 32 → ∀ msg, XmssBasic.sign S (ob i) msg = .ub := by
    intro idx h32 msg
    have hpw : (ob idx).params.wots.w = w := hp.pw
    rw [XmssBasic.sign, hpw, C22_signature_size _ w hw, ok_bind]
    show withHash hf.toNat _ = _
    rw [withHash, ofNat?_toNat]
    simp only
    have : xmssSignmsg S hf ⟨p, height.toNat⟩ (K.sk idx) msg = ub := by
      simp only [xmssSignmsg, K.idx idx h32, K.seed_slice, K.prf_slice, K.ps_slice, ok_bind, K.reindex, K.root_slice,
        prf_eq, toByte_eq_be, hMsg_eq, Adrs.setType, Adrs.setOTS, getSeed_eq]
      obtain ⟨b', c', d', e⟩ := wotsSign_spec S hf hp (Spec.Hmsg (hf.prim S)
            (Spec.PRF (hf.prim S) K.skPrf (Spec.be 32 idx) ++ K.root ++ Spec.be 32 idx) msg) K.skSeed K.ps idx 0 0 0
        (length_Hmsg ..)
      rw [e]
      simp only [ok_bind]
      have hc : computeAuthpathWots S hf idx K.skSeed ⟨p, height.toNat⟩ K.ps ⟨0, 0, 0, 0, idx, b', c', d'⟩ = ub := by
        rw [computeAuthpathWots]
        split
        · rfl
        · rename_i hlt
          have h0 : (2 * 2 ^ height.toNat * 32) % 2 ^ 32 / 32 = 0 := by
            rcases hh with rfl | rfl | rfl
            · decide +kernel
            · decide +kernel
            · exact absurd (show (30 : UInt8).toNat ≥ 30 by decide) hlt
          obtain ⟨m, hm⟩ : ∃ m, 2 ^ height.toNat = m + 1 := ⟨2 ^ height.toNat - 1, by
            have := Nat.two_pow_pos height.toNat; omega⟩
          simp only [h0, List.replicate_zero]
          obtain ⟨x1, x2, x3, x4, x5, x6, hx⟩ := genLeafWots_eq S hf K.skSeed ⟨p, height.toNat⟩ K.ps h1 0 0 0 0 0 0 0
          rw [hm, authLeaves]
          simp only [Adrs.derive, Adrs.setType, Adrs.setLtree, Adrs.setOTS]
          rw [hx]
          rfl
      rw [hc]
      rfl
    show (xmssSignmsg S hf ⟨p, height.toNat⟩ (K.sk idx) msg >>= _) = _
    rw [this]; rfl
  refine ⟨ob 0, e, fun n msg => ⟨hub 0 (by omega) msg, ob n.toNat, ?_, hub _ n.toNat_lt msg⟩⟩
  exact baseSetIndex_eq K (ob 0) 0 n.toNat rfl n.toNat_lt

/-- The hypotheses of `C18_basic_reuse_always` are met, with a history that leaves index 3. -/
example : ∃ o0 rs o, XmssBasic.new toySha zeroSeed 4 1 0 16 = ok o0 ∧
    runCalls (XmssBasic.call toySha) o0 [.sign [1], .setIndex 2, .sign [2]] = some (rs, o) ∧
    o.getIndex = ok (3 : UInt32).toNat ∧ (3 : UInt32).toNat < 2 ^ (4 : UInt8).toNat := by
  obtain ⟨o0, h0, _⟩ := C15_basic_key toySha zeroSeed 4 .shake_128 0 16 (by omega) rfl goodHeight4
  obtain ⟨o, h1, h2⟩ := C18_basic_refines toySha zeroSeed 4 .shake_128 0 16 (by omega) goodHeight4 (by decide) o0 h0
    [.sign [1], .setIndex 2, .sign [2]]
  exact ⟨o0, _, o, h0, h1, h2, by decide⟩

/-- A history the simple signer does not survive: sign at index 16 of 16. -/
example : Spec.looseRun 16 (seedSignature toySha .shake_128 16 4 zeroSeed) 0 [.setIndex 16, .sign []] = none := rfl

end Qrl.Props
