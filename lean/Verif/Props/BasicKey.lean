import Verif.Props.Price
/-!
# C25 and C26 for the simple signer
-/

namespace Qrl.Props

open Outcome Qrl.Spec

/-- C25. The same for the key of an `XmssBasic` with any of the four `w`, even height 4 to 30: every accepted signature names a
one-time key of the tree, carries its authentication path, and its chains end in its WOTS+ public key; or two of the hash calls made by
this verification and by key generation collide. -/
theorem C25_honest_basic (S : Sha256) (seed : Bytes) (height : UInt8) (hf : HashFn) (af w : Nat)
    (hw : w = 2 ∨ w = 4 ∨ w = 16 ∨ w = 256) (o0 : XmssBase)
    (hnew : XmssBasic.new S seed height hf.toNat af w = ok o0) (pk : Bytes) (hpk : o0.getPK = ok pk) (msg sig : Bytes)
    (h : verify S msg sig pk w = ok true) :
    (sigIndex sig < 2 ^ height.toNat ∧
      sigPath w height.toNat sig = authPath (hf.prim S) w (lenW w) ((shake256 96 seed).take 32) ((shake256 96 seed).drop 64)
        height.toNat (sigIndex sig) ∧
      ∀ ch, ch < lenW w → ∃ d, (sigDigits (hf.prim S) w (keyRoot pk) msg sig)[ch]? = some d ∧
        LeadsTo (hf.prim S) ((shake256 96 seed).drop 64) (sigIndex sig) ch d (sigChain sig ch) (w - 1)
          (chain (hf.prim S) ((shake256 96 seed).drop 64) (sigIndex sig) ch 0 (w - 1)
            (wotsSecret (hf.prim S) ((shake256 96 seed).take 32) (sigIndex sig) ch))) ∨
    Collides (hf.prim S) (verifyCalls (hf.prim S) w msg sig pk ++
      nodeCalls (hf.prim S) w (lenW w) ((shake256 96 seed).take 32) ((shake256 96 seed).drop 64) height.toNat 0) := by
  obtain ⟨hs, hh, -⟩ := (C39_basic_succeeds S seed height hf.toNat af w hw).mp ⟨o0, hnew⟩
  obtain ⟨p, k, q, hp, h1, h2, e⟩ := basicNew_eq S seed height hf af w hw hs hh
  rw [e] at hnew
  cases hnew
  have hpk' := getPK_eq (keyOf S hf w height.toNat (lenW_pos hw) seed) _ 0
    (show XmssBase.sk (XmssBase.mk ⟨p, height.toNat⟩ hf.toNat af height ((keyOf S hf w height.toNat (lenW_pos hw) seed).sk 0) seed) = _ from rfl)
  rw [hpk'] at hpk
  cases hpk
  obtain ⟨f1, f2, f3, f4, f5⟩ := pk_fields (keyOf S hf w height.toNat (lenW_pos hw) seed)
    (XmssBase.mk ⟨p, height.toNat⟩ hf.toNat af height ((keyOf S hf w height.toNat (lenW_pos hw) seed).sk 0) seed) hf rfl hh
  generalize XmssBase.getDescriptorBytes _ ++ (keyOf S hf w height.toNat (lenW_pos hw) seed).root ++
    (keyOf S hf w height.toNat (lenW_pos hw) seed).ps = pk at *
  have hroot : keyRoot pk = node (hf.prim S) w (lenW w) ((shake256 96 seed).take 32) ((shake256 96 seed).drop 64) height.toNat 0 := f4
  have hseed : keySeed pk = (shake256 96 seed).drop 64 := f5
  obtain ⟨wf, hf', hh', hr⟩ := verify_true_iff hw h
  rw [f2, ofNat?_toNat] at hh'
  cases hh'
  have hl := wf.2.2
  have f3' : keyHeight pk = height.toNat := f3
  rw [f3'] at hl hr
  rw [hseed] at hr
  obtain ⟨g1, g2, -⟩ := hh
  rcases honest_root (out32 S hf) hw (by omega) g2 hl hroot hr with ⟨a, b, c⟩ | hc
  · left
    refine ⟨a, b, fun ch hch => ?_⟩
    obtain ⟨d, d1, d2, d3⟩ := c ch hch
    exact ⟨d, d1, d3 (w - 1) (by omega) (Nat.le_refl _)⟩
  · right
    rw [verifyCalls, hseed, f3']
    exact hc

/-- C26. The layout of the keys of an `XmssBasic`, after any history: `getSK()` is index ‖ SK_SEED ‖ SK_PRF ‖ PUB_SEED ‖ root and
`getPK()` is descriptor ‖ root ‖ PUB_SEED. -/
theorem C26_basic_layout (S : Sha256) (seed : Bytes) (height : UInt8) (hf : HashFn) (af w : Nat)
    (hw : w = 2 ∨ w = 4 ∨ w = 16 ∨ w = 256) (h24 : height.toNat ≤ 24) (o0 : XmssBase)
    (hnew : XmssBasic.new S seed height hf.toNat af w = ok o0) (cs : List Call) (rs : List Reply) (o : XmssBase)
    (hrun : runCalls (XmssBasic.call S) o0 cs = some (rs, o)) :
    ∃ skSeed skPrf pubSeed root, o.getSKSeed = ok skSeed ∧ o.getSKPRF = ok skPrf ∧ o.getPKSeed = ok pubSeed ∧
      o.getRoot = ok root ∧ o.sk = o.sk.take 4 ++ skSeed ++ skPrf ++ pubSeed ++ root ∧
      skSeed.length = 32 ∧ skPrf.length = 32 ∧ pubSeed.length = 32 ∧ root.length = 32 ∧
      o.getPK = ok (o.getDescriptorBytes ++ root ++ pubSeed) ∧ o.getDescriptorBytes.length = 3 := by
  obtain ⟨hs, hh, -⟩ := (C39_basic_succeeds S seed height hf.toNat af w hw).mp ⟨o0, hnew⟩
  obtain ⟨p, k, q, hp, h1, h2, e⟩ := basicNew_eq S seed height hf af w hw hs hh
  rw [e] at hnew
  cases hnew
  have h4 := hh.1
  obtain ⟨j, hj, rfl⟩ := basic_reach S hf hw hp h1 (keyOf S hf w height.toNat (lenW_pos hw) seed) cs _ 0 rs o rfl rfl
    (by simp only; omega) (by simp only; omega) rfl rfl (by omega) hrun
  generalize keyOf S hf w height.toNat (lenW_pos hw) seed = K
  refine ⟨K.skSeed, K.skPrf, K.ps, K.root, K.seed_slice j, K.prf_slice j, K.ps_slice j, K.root_slice j, ?_, K.l1, K.l2,
    K.l3, K.l4, ?_, ?_⟩
  · show K.sk j = (K.sk j).take 4 ++ _ ++ _ ++ _ ++ _
    have := List.take_append_drop 4 (K.sk j)
    rw [K.drop4] at this
    conv => lhs; rw [← this]
    simp
  · exact getPK_eq K _ j rfl
  · exact length_descBytes _

/-- The hypotheses are met: a simple signer with `w = 4` that signs, and its signature is accepted. -/
theorem basic_key_demo (S : Sha256) (m : Bytes) : ∃ o0 pk s o, XmssBasic.new S zeroSeed 4 (HashFn.toNat .shake_256) 0 4 = ok o0 ∧
    o0.getPK = ok pk ∧ runCalls (XmssBasic.call S) o0 [.sign m] = some ([.sig s], o) ∧ verify S m s pk 4 = ok true := by
  obtain ⟨o0, h⟩ := (C39_basic_succeeds S zeroSeed 4 (HashFn.toNat .shake_256) 0 4 (by omega)).mpr ⟨rfl, goodHeight4, by decide⟩
  obtain ⟨p, k, q, hp, h1, h2, e⟩ := basicNew_eq S zeroSeed 4 .shake_256 0 4 (by omega) rfl goodHeight4
  have hi : o0.getIndex = ok 0 := by
    rw [h] at e; cases e
    exact KeyParts.getIndex (keyOf S .shake_256 4 (UInt8.toNat 4) (lenW_pos (by omega)) zeroSeed) _ 0 rfl (by omega)
  obtain ⟨s, o', pk, a1, -, -, -, a2, a3, -⟩ := C13_basic_sign_verifies S zeroSeed 4 .shake_256 0 4 (by omega) goodHeight4 (by decide) o0 h
    [] [] o0 rfl 0 hi (by decide) m
  exact ⟨o0, pk, s, o', h, a2, by simp only [runCalls, XmssBasic.call, a1], a3⟩

example := basic_key_demo toySha [1, 2, 3]

end Qrl.Props
