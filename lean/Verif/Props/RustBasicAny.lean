import Verif.Proof.RustBasicAny
import Verif.Props.RustAnyW
/-!
# C52, C69: the Rust `XMSSBasic` over every history, with any Winternitz parameter
-/

namespace Qrl.Props

open Spec

/-- C69. **`XMSSBasic`: every parameter, height, history.** For every `w` from 2 to 65535 and every even height 4..30 the
constructor succeeds in both build modes, and on every history the object is the counter without checks: `set_index` accepts
every number; `sign` at an index below `2^height` gives `rustSeedSignature` (the signature an `XMSSFast` gives at that index) or
panics where that is `none`; `sign` at any other index, and from height 26 on at every index, panics. In a build without overflow
checks this holds at height 4 for indices below 2^29 and at height 6 for indices below 2^31; `C52_release_history` says what happens
at all others. -/
theorem C69_basic_history (b : Rs.Build) (S : Sha256) (seed : Bytes) (height : UInt8) (hf : HashFn) (w : Nat)
    (hw : RangeW w) (hs : seed.length = 48) (hh : GoodHeight height) :
    ∃ o0, Rs.XMSSBasic.new b S seed height hf w = .ok o0 ∧ ∀ cs : List Call,
      (b = .debug ∨ 8 ≤ height.toNat ∨ ∀ n, Call.setIndex n ∈ cs → n.toNat < 2 ^ (25 + height.toNat)) →
      match partialLoose (if height.toNat ≤ 24 then 2 ^ height.toNat else 0) (rustSeedSignature b S hf w height.toNat seed) 0 cs with
      | some (rs, i) => ∃ o, runCalls (Rs.XMSSBasic.call b S) o0 cs = some (rs, o) ∧ o.getIndex = .ok i
      | none => runCalls (Rs.XMSSBasic.call b S) o0 cs = none := by
  refine ⟨_, Rs.basic_new_rsAny b seed height hf hw hs hh, fun cs hb => ?_⟩
  let K := keyP S hf w (rustLen w) height.toNat (Rs.rustLen_pos hw) seed
  let o0 : Rs.XMSSBasic := { hashFunction := hf, height := height, sk := K.sk 0, seed := seed, params := ⟨Rs.wotsParams w, height.toNat⟩ }
  obtain ⟨e1, e2⟩ := Rs.basic_run_rsAny (S := S) b hw o0 rfl hh K rfl cs 0 (by omega) (by
    rcases hb with h | h | h
    · exact Or.inl h
    · refine Or.inr ⟨Nat.two_pow_pos _, fun n _ => Nat.lt_of_lt_of_le n.toNat_lt ?_⟩
      exact Nat.pow_le_pow_right (by omega) (show 32 ≤ 25 + height.toNat by omega)
    · exact Or.inr ⟨Nat.two_pow_pos _, h⟩)
  have e1' : runCalls (Rs.XMSSBasic.call b S) o0 cs = (partialLoose (if height.toNat ≤ 24 then 2 ^ height.toNat else 0)
    (rustSeedSignature b S hf w height.toNat seed) 0 cs).map (fun x => (x.1, Rs.basicAt K o0 x.2)) := e1
  have e2' : ∀ x, partialLoose (if height.toNat ≤ 24 then 2 ^ height.toNat else 0)
    (rustSeedSignature b S hf w height.toNat seed) 0 cs = some x → x.2 < 2 ^ 32 := e2
  show match partialLoose (if height.toNat ≤ 24 then 2 ^ height.toNat else 0) (rustSeedSignature b S hf w height.toNat seed) 0 cs with
      | some (rs, i) => ∃ o, runCalls (Rs.XMSSBasic.call b S) o0 cs = some (rs, o) ∧ o.getIndex = .ok i
      | none => runCalls (Rs.XMSSBasic.call b S) o0 cs = none
  rw [e1']
  generalize hp : partialLoose (if height.toNat ≤ 24 then 2 ^ height.toNat else 0) (rustSeedSignature b S hf w height.toNat seed) 0 cs = r at *
  cases r with
  | none => rfl
  | some x =>
    refine ⟨_, rfl, ?_⟩
    exact Rs.getIndex_sim (Rs.basicAt K o0 x.2).toXMSSBase o0.params x.2 (K.getIndex _ x.2 rfl (e2' x rfl))

/-- C52, refuted: the natural property that a signer of height 4 has 16 one-time keys and refuses the rest. In a build without
overflow checks, for every seed, hash function, parameter and message short enough to be signed, `set_index(c * 2^30 + j)` with
`j < 16` and `c` in 1..3 is accepted, and `sign` then returns a signature: it carries the index `c * 2^30 + j`, its chains start at
one-time key `c * 2^30 + j`, which is no leaf of the tree, and its authentication path is the one of leaf `j`. -/
theorem C52_basic_wrap_refuted (S : Sha256) (seed : Bytes) (hf : HashFn) (w : Nat) (hw : RangeW w) (hs : seed.length = 48)
    (c j : Nat) (hj : j < 16) (hc : c * 2 ^ 30 + j + 1 < 2 ^ 32) (m : Bytes) (hm : ¬ rustLong hf m) :
    ∃ o0 o r ds, Rs.XMSSBasic.new .release S seed 4 hf w = .ok o0 ∧
      runCalls (Rs.XMSSBasic.call .release S) o0 [.setIndex (UInt32.ofNat (c * 2 ^ 30 + j)), .sign m] =
        some ([.index (c * 2 ^ 30 + j), .sig (be 4 (c * 2 ^ 30 + j) ++ r ++
          (wotsSig (hf.prim S) ((shake256 96 seed).take 32) ((shake256 96 seed).drop 64) (c * 2 ^ 30 + j) ds).flatten ++
          (authPath (hf.prim S) w (rustLen w) ((shake256 96 seed).take 32) ((shake256 96 seed).drop 64) 4 j).flatten)], o) := by
  have hh : GoodHeight 4 := goodHeight4
  obtain ⟨N, hN⟩ : ∃ N, N = c * 2 ^ 30 + j := ⟨_, rfl⟩
  rw [← hN] at hc ⊢
  have h44 : (4 : UInt8).toNat = 4 := rfl
  let K := keyP S hf w (rustLen w) 4 (Rs.rustLen_pos hw) seed
  let o0 : Rs.XMSSBasic := { hashFunction := hf, height := 4, sk := K.sk 0, seed := seed, params := ⟨Rs.wotsParams w, 4⟩ }
  have hnew : Rs.XMSSBasic.new .release S seed 4 hf w = .ok o0 := Rs.basic_new_rsAny .release seed 4 hf hw hs hh
  have hn : (UInt32.ofNat (N)).toNat = N := by
    rw [UInt32.toNat_ofNat', Nat.mod_eq_of_lt (by omega)]
  have hset := Rs.basic_setIndex_rs K o0 0 (N) (by omega)
  have hpath : ∀ b' c' d', Rs.computeAuthpathWots .release S hf (N) K.skSeed ⟨Rs.wotsParams w, 4⟩ K.ps
      ⟨0, 0, 0, 0, N, b', c', d'⟩ = .ok (node (hf.prim S) w (rustLen w) K.skSeed K.ps 4 0,
        authPath (hf.prim S) w (rustLen w) K.skSeed K.ps 4 j) := by
    intro b' c' d'
    have hsim := Rs.computeAuthpathWots_sim S hf .release j K.skSeed ⟨Rs.wotsParams w, 4⟩ K.ps
      ⟨0, 0, 0, 0, N, b', c', d'⟩ (by rw [K.l1]) (by rw [K.l3]) (by simp only; omega)
    rw [Rs.take32_of K.l1, Rs.take32_of K.l3] at hsim
    have h := hsim _ (computeAuthpathWots_eq S hf ⟨Rs.wotsParams w, 4⟩ K.skSeed K.ps (Rs.rustLen_pos hw) (by simp only; omega) j hj _ _ _ _ _)
    refine Eq.trans ?_ h
    simp only [Rs.computeAuthpathWots]
    rw [Rs.shl1_lt .release (by omega)]
    simp only [Rs.Res.ok_bind, show 2 ^ 4 = 16 from rfl, hN, Rs.authCopy_wrap _ c j hj (by omega)]
  have hsign := Rs.signMsg_rsAny (S := S) .release hf hw 4 K (N) hc _ _ m hpath
  have hroot : K.root = node (hf.prim S) w (rustLen w) K.skSeed K.ps 4 0 := rfl
  cases hx : rustSigned hf (PRF (hf.prim S) K.skPrf (be 32 (N)) ++ K.root ++ be 32 (N)) m with
  | none => 
    obtain ⟨h1, -⟩ := C53_message_classes hf m
    rcases h1 with h1 | h1 | h1
    · rw [rustSigned_short h1] at hx; cases hx
    · rw [rustSigned_cut h1] at hx; cases hx
    · exact absurd h1 hm
  | some m' =>
    rw [hx] at hsign
    dsimp only at hsign
    have hd : (digest (hf.prim S) (PRF (hf.prim S) K.skPrf (be 32 (N))) K.root (N) m').length = 32 := by
      rw [Spec.digest]; exact length_Hmsg ..
    obtain ⟨ds, hds⟩ : ∃ ds, rustPositions .release w (digest (hf.prim S) (PRF (hf.prim S) K.skPrf (be 32 (N))) K.root (N) m') = some ds := by
      rw [rustPositions]
      split <;> exact ⟨_, rfl⟩
    rw [hds] at hsign
    dsimp only at hsign
    refine ⟨o0, Rs.basicAt K o0 (N + 1), PRF (hf.prim S) K.skPrf (be 32 (N)), ds, hnew, ?_⟩
    have hcall1 : Rs.XMSSBasic.call .release S o0 (.setIndex (UInt32.ofNat (N))) =
        some (.index (N), Rs.basicAt K o0 (N)) := by
      rw [Rs.XMSSBasic.call, hn]
      have : o0.toXMSSBase.setIndex (N) = _ := hset
      rw [this]
      rfl
    have hcall2 : Rs.XMSSBasic.call .release S (Rs.basicAt K o0 (N)) (.sign m) =
        some (.sig (be 4 (N) ++ PRF (hf.prim S) K.skPrf (be 32 (N)) ++
          (wotsSig (hf.prim S) K.skSeed K.ps (N) ds).flatten ++
          (authPath (hf.prim S) w (rustLen w) K.skSeed K.ps 4 j).flatten), Rs.basicAt K o0 (N + 1)) := by
      rw [Rs.XMSSBasic.call, Rs.XMSSBasic.sign]
      have : Rs.xmssSignMsg .release S (Rs.basicAt K o0 (N)).hashFunction (Rs.basicAt K o0 (N)).params
        (Rs.basicAt K o0 (N)).sk m = _ := hsign
      rw [this, Rs.Res.ok_bind]
      dsimp only
      rw [Rs.fillBuffer_exact]
      · rfl
      · show _ = 4 + 32 + (Rs.wotsParams w).keysize + 4 * 32
        rw [show (Rs.wotsParams w).keysize = rustLen w * 32 from rfl]
        simp only [List.length_append, length_be, length_PRF, length_flatten32 _ (mem_wotsSig S hf _ _ _ _),
          length_flatten32 _ (mem_authPath S hf w (rustLen w) _ _ 4 j (Rs.rustLen_pos hw))]
        simp only [wotsSig, authPath, List.length_map, List.length_zipIdx, List.length_range, (Rs.rustPositions_props hw hd hds).1]
        omega
    rw [runCalls, hcall1]
    simp only
    rw [runCalls, hcall2]
    rfl

/-- A simple signer with `w = 8` in a build without overflow checks signs twice with one-time key 15, then panics at index 16. -/
theorem demo_basic_any (S : Sha256) (hf : HashFn) (m m' : Bytes) (hm : ¬ rustLong hf m) (hm' : ¬ rustLong hf m') :
    ∃ o0 rs o, Rs.XMSSBasic.new .release S zeroSeed 4 hf 8 = .ok o0 ∧
      runCalls (Rs.XMSSBasic.call .release S) o0 [.setIndex 15, .sign m, .setIndex 15, .sign m'] = some (rs, o) ∧
      o.getIndex = .ok 16 ∧
      runCalls (Rs.XMSSBasic.call .release S) o0 [.setIndex 15, .sign m, .sign m'] = none := by
  obtain ⟨o0, h0, h⟩ := C69_basic_history .release S zeroSeed 4 hf 8 (by decide) (by decide) goodHeight4
  have hb : ∀ cs, cs = [Call.setIndex 15, .sign m, .setIndex 15, .sign m'] ∨ cs = [Call.setIndex 15, .sign m, .sign m'] →
      ∀ n, Call.setIndex n ∈ cs → n.toNat < 2 ^ (25 + (4 : UInt8).toNat) := by
    rintro cs (rfl | rfl) n hn <;> simp at hn <;> subst hn <;> decide +kernel
  have h1 := h _ (Or.inr (Or.inr (hb _ (Or.inl rfl))))
  have h2 := h _ (Or.inr (Or.inr (hb _ (Or.inr rfl))))
  have hsome : ∀ (x : Bytes), ¬ rustLong hf x → ∃ sig, rustSeedSignature .release S hf 8 (UInt8.toNat 4) zeroSeed 15 x = some sig := by
    intro x hx
    rw [rustSeedSignature_digest _ _ _ _ _ _ _ _ hx, rustPositions.eq_def]
    rw [if_neg (by decide)]; exact ⟨_, rfl⟩
  obtain ⟨s1, e1⟩ := hsome m hm
  obtain ⟨s2, e2⟩ := hsome m' hm'
  have hlim : (if (4 : UInt8).toNat ≤ 24 then 2 ^ (4 : UInt8).toNat else 0) = 16 := by decide
  have h15 : (15 : UInt32).toNat = 15 := rfl
  simp only [hlim, partialLoose, h15, e1, e2, show 15 < 16 by decide, if_true, Option.map_some, show ¬ 15 + 1 < 16 by decide,
    if_false, Option.map_none] at h1 h2
  obtain ⟨o, g1, g2⟩ := h1
  exact ⟨o0, _, o, h0, g1, g2, h2⟩

example : ∃ o0 rs o, Rs.XMSSBasic.new .release toySha zeroSeed 4 .shake_128 8 = .ok o0 ∧
    runCalls (Rs.XMSSBasic.call .release toySha) o0 [.setIndex 15, .sign [1], .setIndex 15, .sign [2]] = some (rs, o) ∧
    o.getIndex = .ok 16 ∧ runCalls (Rs.XMSSBasic.call .release toySha) o0 [.setIndex 15, .sign [1], .sign [2]] = none :=
  demo_basic_any toySha .shake_128 [1] [2] (short_not_long (by simp only [rustShort, rustRoom]; decide))
    (short_not_long (by simp only [rustShort, rustRoom]; decide))

/-- A message, an index and a parameter for `C52_basic_wrap_refuted`. -/
example : RangeW 16 ∧ 3 * 2 ^ 30 + 7 + 1 < 2 ^ 32 ∧ ¬ rustLong .shake_128 [1] :=
  ⟨by decide, by decide, short_not_long (by simp only [rustShort, rustRoom]; decide)⟩

end Qrl.Props
