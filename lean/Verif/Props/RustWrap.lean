import Verif.Props.RustBasicAny
import Verif.Proof.RustWrap
/-!
# C52: the Rust `XMSSBasic` in a build without overflow checks, at every 32-bit index
-/

namespace Qrl.Props

open Spec

/-- C52, C69. **Refinement, builds without overflow checks.** For every seed, hash function, parameter 2 to 65535 and even height
4..24, on every history of `set_index` and `sign` calls with any 32-bit indices, the object behaves like a 32-bit counter without
any check that signs with `wrapSignature`: same replies, same final index, panic at the same call. -/
theorem C52_release_history (S : Sha256) (seed : Bytes) (height : UInt8) (hf : HashFn) (w : Nat)
    (hw : RangeW w) (hs : seed.length = 48) (hh : GoodHeight height) (h24 : height.toNat ≤ 24) :
    ∃ o0, Rs.XMSSBasic.new .release S seed height hf w = .ok o0 ∧ ∀ cs : List Call,
      match wrapRun (wrapSignature S hf w height.toNat seed) 0 cs with
      | some (rs, i) => ∃ o, runCalls (Rs.XMSSBasic.call .release S) o0 cs = some (rs, o) ∧ o.getIndex = .ok i
      | none => runCalls (Rs.XMSSBasic.call .release S) o0 cs = none := by
  refine ⟨_, Rs.basic_new_rsAny .release seed height hf hw hs hh, fun cs => ?_⟩
  let K := keyP S hf w (rustLen w) height.toNat (Rs.rustLen_pos hw) seed
  let o0 : Rs.XMSSBasic := { hashFunction := hf, height := height, sk := K.sk 0, seed := seed, params := ⟨Rs.wotsParams w, height.toNat⟩ }
  obtain ⟨e1, e2⟩ := Rs.basic_run_release (S := S) seed hw o0 rfl h24 cs 0 (by omega)
  have e1' : runCalls (Rs.XMSSBasic.call .release S) o0 cs =
    (wrapRun (wrapSignature S hf w height.toNat seed) 0 cs).map (fun x => (x.1, Rs.basicAt K o0 x.2)) := e1
  have e2' : ∀ x, wrapRun (wrapSignature S hf w height.toNat seed) 0 cs = some x → x.2 < 2 ^ 32 := e2
  show match wrapRun (wrapSignature S hf w height.toNat seed) 0 cs with
      | some (rs, i) => ∃ o, runCalls (Rs.XMSSBasic.call .release S) o0 cs = some (rs, o) ∧ o.getIndex = .ok i
      | none => runCalls (Rs.XMSSBasic.call .release S) o0 cs = none
  rw [e1']
  generalize hp : wrapRun (wrapSignature S hf w height.toNat seed) 0 cs = r at *
  cases r with
  | none => rfl
  | some x => exact ⟨_, rfl, Rs.getIndex_sim (Rs.basicAt K o0 x.2).toXMSSBase o0.params x.2 (K.getIndex _ x.2 rfl (e2' x rfl))⟩

/-- A signature from index `i` is returned iff the message can be hashed and every slot read is in the tree. -/
theorem C52_release_panics_iff (S : Sha256) (hf : HashFn) (w h : Nat) (seed : Bytes) (i : Nat) (m : Bytes) :
    wrapSignature S hf w h seed i m = none ↔ rustLong hf m ∨ ¬ WrapFits h i := by
  rw [wrapSignature]
  by_cases hw : WrapFits h i
  · rw [if_pos hw]
    obtain ⟨h1, h2⟩ := C53_message_classes hf m
    generalize PRF (hf.prim S) (((shake256 96 seed).drop 32).take 32) (be 32 i) = r
    generalize node (hf.prim S) w (rustLen w) ((shake256 96 seed).take 32) ((shake256 96 seed).drop 64) h 0 = root
    have hp : ∀ x, ∃ ds, rustPositions .release w x = some ds := by
      intro x; rw [rustPositions]; split <;> exact ⟨_, rfl⟩
    have key : ∀ x : Bytes, rustSigned hf (r ++ root ++ be 32 i) m = some x → ¬ rustLong hf m →
        ((do let m' ← rustSigned hf (r ++ root ++ be 32 i) m
             let ds ← rustPositions .release w (digest (hf.prim S) r root i m')
             some (be 4 i ++ r ++ (wotsSig (hf.prim S) ((shake256 96 seed).take 32) ((shake256 96 seed).drop 64) i ds).flatten ++
               (wrapPath (hf.prim S) w (rustLen w) ((shake256 96 seed).take 32) ((shake256 96 seed).drop 64) h i).flatten)) = none ↔
          rustLong hf m ∨ ¬ WrapFits h i) := by
      intro x hx hl
      obtain ⟨ds, hds⟩ := hp (digest (hf.prim S) r root i x)
      rw [hx, Option.bind_eq_bind, Option.bind_some, hds]
      constructor
      · intro h; cases h
      · rintro (h | h)
        · exact absurd h hl
        · exact absurd hw h
    rcases h1 with h1 | h1 | h1
    · exact key _ (rustSigned_short h1 _) (short_not_long h1)
    · exact key _ (rustSigned_cut h1 _) (fun hl => h2.2 ⟨h1, hl⟩)
    · rw [rustSigned_long h1]
      exact ⟨fun _ => Or.inl h1, fun _ => rfl⟩
  · rw [if_neg hw]
    exact ⟨fun _ => Or.inr hw, fun _ => rfl⟩

/-- Inside the tree nothing goes wrong: below `2^height` it is the signature of `C69_basic_history`. -/
theorem C52_release_inside (S : Sha256) (hf : HashFn) (w h : Nat) (seed : Bytes) (i : Nat) (m : Bytes) (h24 : h ≤ 24)
    (hi : i < 2 ^ h) : wrapSignature S hf w h seed i m = rustSeedSignature .release S hf w h seed i m := by
  obtain ⟨h1, h2⟩ := Rs.wrap_inside h24 hi
  rw [wrapSignature, rustSeedSignature, rustSignatureAny]
  rw [if_pos h1]
  simp only [h2]
  rfl

/-- Which indices can be signed with: at height 4 also those within 16 of a multiple of `2^30`, at height 6 also the last 64
32-bit numbers, from height 8 on only those of the tree. -/
theorem C52_release_indices (i : Nat) (hi : i < 2 ^ 32) :
    (WrapFits 4 i ↔ i % 2 ^ 30 < 16 ∨ 2 ^ 30 - 16 ≤ i % 2 ^ 30) ∧
    (WrapFits 6 i ↔ i < 64 ∨ 2 ^ 32 - 64 ≤ i) ∧
    ∀ h, 8 ≤ h → h ≤ 24 → (WrapFits h i ↔ i < 2 ^ h) := by
  refine ⟨?_, ?_, ?_⟩
  · constructor
    · intro H
      have h0 := H 0 (by omega)
      have h1 := H 1 (by omega)
      have h2 := H 2 (by omega)
      have h3 := H 3 (by omega)
      simp only [wrapSlot, sibling, Nat.reducePow, Nat.reduceSub, Nat.reduceAdd] at h0 h1 h2 h3
      repeat' split at h0
      all_goals repeat' split at h1
      all_goals repeat' split at h2
      all_goals repeat' split at h3
      all_goals omega
    · intro H l hl
      have : l = 0 ∨ l = 1 ∨ l = 2 ∨ l = 3 := by omega
      rcases this with rfl | rfl | rfl | rfl <;>
        simp only [wrapSlot, sibling, Nat.reducePow, Nat.reduceSub, Nat.reduceAdd] at H ⊢ <;> split <;> omega
  · constructor
    · intro H
      have h0 := H 0 (by omega)
      have h5 := H 5 (by omega)
      have h3 := H 3 (by omega)
      have h1 := H 1 (by omega)
      have h2 := H 2 (by omega)
      have h4 := H 4 (by omega)
      simp only [wrapSlot, sibling, Nat.reducePow, Nat.reduceSub, Nat.reduceAdd] at h0 h1 h2 h3 h4 h5
      have a0 : i % 2 ^ 27 < 64 ∨ 2 ^ 27 - 64 ≤ i % 2 ^ 27 := by split at h0 <;> omega
      have a1 : i / 2 % 2 ^ 27 < 96 ∨ 2 ^ 27 - 32 ≤ i / 2 % 2 ^ 27 := by split at h1 <;> omega
      have a2 : i / 4 % 2 ^ 27 < 112 ∨ 2 ^ 27 - 16 ≤ i / 4 % 2 ^ 27 := by split at h2 <;> omega
      have a3 : i / 8 % 2 ^ 27 < 120 ∨ 2 ^ 27 - 8 ≤ i / 8 % 2 ^ 27 := by split at h3 <;> omega
      have a4 : i / 16 % 2 ^ 27 < 124 ∨ 2 ^ 27 - 4 ≤ i / 16 % 2 ^ 27 := by split at h4 <;> omega
      have a5 : i / 32 % 2 ^ 27 < 126 ∨ 2 ^ 27 - 2 ≤ i / 32 % 2 ^ 27 := by split at h5 <;> omega
      clear h0 h1 h2 h3 h4 h5 H
      omega
    · intro H l hl
      have : l = 0 ∨ l = 1 ∨ l = 2 ∨ l = 3 ∨ l = 4 ∨ l = 5 := by omega
      rcases this with rfl | rfl | rfl | rfl | rfl | rfl <;>
        simp only [wrapSlot, sibling, Nat.reducePow, Nat.reduceSub, Nat.reduceAdd] at H ⊢ <;> split <;> omega
  · intro h h8 h24
    refine ⟨fun H => ?_, fun H => (Rs.wrap_inside h24 H).1⟩
    apply Classical.byContradiction
    intro hn
    have hz : (List.replicate 32 (0 : UInt8)).length = 32 := List.length_replicate
    have e1 := Rs.computeAuthpath_release (S := toySha) .sha2_256 ⟨Rs.wotsParams 16, h⟩ _ _ hz hz (Rs.rustLen_pos (by decide)) h24 i hi 0 0 0 0 0
    have e2 := Rs.computeAuthpath_oob_rs (S := toySha) .release .sha2_256 ⟨Rs.wotsParams 16, h⟩ _ _ hz hz (Rs.rustLen_pos (by decide))
      (show 1 ≤ h by omega) h24 i (show 2 ^ h ≤ i by omega) hi
      (Or.inr (Nat.lt_of_lt_of_le hi (Nat.pow_le_pow_right (by omega) (show 32 ≤ 25 + h by omega)))) 0 0 0 0 0
    rw [e2, if_pos H] at e1
    cases e1

/-- C52, refuted: that a signer which has used its last index stops. In a build without overflow checks, for every seed, hash
function, parameter and messages short enough to be signed, an `XMSSBasic` of height 4 or 6 signs at index `2^32 - 1` and goes on
with index 0: the second signature is the one of a new object. -/
theorem C52_release_rollover_refuted (S : Sha256) (seed : Bytes) (height : UInt8) (hf : HashFn) (w : Nat)
    (hw : RangeW w) (hs : seed.length = 48) (hh : height = 4 ∨ height = 6) (m m' : Bytes) (hm : ¬ rustLong hf m) (hm' : ¬ rustLong hf m') :
    ∃ o0 o1 o s s', Rs.XMSSBasic.new .release S seed height hf w = .ok o0 ∧
      runCalls (Rs.XMSSBasic.call .release S) o0 [.setIndex (UInt32.ofNat (2 ^ 32 - 1)), .sign m] = some ([.index (2 ^ 32 - 1), .sig s], o1) ∧
      o1.getIndex = .ok 0 ∧
      runCalls (Rs.XMSSBasic.call .release S) o0 [.setIndex (UInt32.ofNat (2 ^ 32 - 1)), .sign m, .sign m'] =
        some ([.index (2 ^ 32 - 1), .sig s, .sig s'], o) ∧
      sigIndex s = 2 ^ 32 - 1 ∧ sigIndex s' = 0 ∧
      ∃ o', runCalls (Rs.XMSSBasic.call .release S) o0 [.sign m'] = some ([.sig s'], o') := by
  have hg : GoodHeight height := by rcases hh with rfl | rfl <;> exact ⟨by decide, by decide, by decide⟩
  have h24 : height.toNat ≤ 24 := by rcases hh with rfl | rfl <;> decide
  obtain ⟨o0, e0, H⟩ := C52_release_history S seed height hf w hw hs hg h24
  have f1 : WrapFits height.toNat (2 ^ 32 - 1) := by
    rcases hh with rfl | rfl
    · exact (C52_release_indices (2 ^ 32 - 1) (by decide)).1.mpr (Or.inr (by decide))
    · exact (C52_release_indices (2 ^ 32 - 1) (by decide)).2.1.mpr (Or.inr (by decide))
  have f0 : WrapFits height.toNat 0 := (Rs.wrap_inside h24 (Nat.two_pow_pos _)).1
  have hsome : ∀ i x, WrapFits height.toNat i → ¬ rustLong hf x → ∃ s, wrapSignature S hf w height.toNat seed i x = some s := by
    intro i x hi hx
    cases h : wrapSignature S hf w height.toNat seed i x with
    | some s => exact ⟨s, rfl⟩
    | none =>
      rcases (C52_release_panics_iff S hf w height.toNat seed i x).mp h with h | h
      · exact absurd h hx
      · exact absurd hi h
  have hidx : ∀ i x s, i < 2 ^ 32 → wrapSignature S hf w height.toNat seed i x = some s → sigIndex s = i := by
    intro i x s hi h
    rw [wrapSignature] at h
    split at h
    · obtain ⟨m1, -, h⟩ := Option.bind_eq_some_iff.mp h
      obtain ⟨ds, -, h⟩ := Option.bind_eq_some_iff.mp h
      cases h
      rw [sigIndex, List.append_assoc, List.append_assoc, List.take_left' (length_be ..)]
      rw [byteVal_be]; omega
    · cases h
  obtain ⟨s, es⟩ := hsome _ m f1 hm
  obtain ⟨s', es'⟩ := hsome _ m' f0 hm'
  have hn : (UInt32.ofNat (2 ^ 32 - 1)).toNat = 2 ^ 32 - 1 := by decide
  have g1 := H [.setIndex (UInt32.ofNat (2 ^ 32 - 1)), .sign m]
  have g2 := H [.setIndex (UInt32.ofNat (2 ^ 32 - 1)), .sign m, .sign m']
  have g3 := H [.sign m']
  have hmod : (2 ^ 32 - 1 + 1) % 2 ^ 32 = 0 := by decide
  simp only [wrapRun, hn, es, es', hmod, Option.map_some] at g1 g2 g3
  obtain ⟨o1, a1, b1⟩ := g1
  obtain ⟨o, a2, -⟩ := g2
  obtain ⟨o', a3, -⟩ := g3
  exact ⟨o0, o1, o, s, s', e0, a1, b1, a2, hidx _ _ _ (by decide) es, hidx _ _ _ (by decide) es', o', a3⟩

/-- The path returned with the last index at height 6 ends with the unused slot of the array: 32 zero bytes. -/
example (G : Bytes → Bytes) (w len : Nat) (sk ps : Bytes) :
    WrapFits 6 (2 ^ 32 - 1) ∧ (wrapPath G w len sk ps 6 (2 ^ 32 - 1))[5]? = some (List.replicate 32 0) ∧
    (wrapPath G w len sk ps 6 (2 ^ 32 - 1))[0]? = some (node G w len sk ps 1 30) := by
  refine ⟨(C52_release_indices _ (by decide)).2.1.mpr (Or.inr (by decide)), rfl, ?_⟩
  have e : wrapSlot 6 (2 ^ 32 - 1) 0 = 62 := by decide
  have l : Nat.log2 62 = 5 := by decide
  simp only [wrapPath, List.getElem?_map, List.getElem?_range (show 0 < 6 by decide), Option.map_some, e, slotBytes, l]
  rfl

/-- Heights, indices, a parameter and messages for the theorems above. -/
example : RangeW 16 ∧ GoodHeight 6 ∧ (6 : UInt8).toNat ≤ 24 ∧ ¬ rustLong .shake_128 [1] ∧ WrapFits 4 (2 ^ 30 - 16) ∧
    ¬ WrapFits 4 (2 ^ 30 - 17) ∧ WrapFits 4 (2 ^ 31 + 15) ∧ ¬ WrapFits 6 64 :=
  ⟨by decide, ⟨by decide, by decide, by decide⟩, by decide, short_not_long (by simp only [rustShort, rustRoom]; decide), by decide +kernel,
    by decide +kernel, by decide +kernel, by decide +kernel⟩

end Qrl.Props
