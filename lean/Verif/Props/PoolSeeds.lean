import Verif.Props.Pool
import Verif.Props.Identity
/-!
# Which keys two pools share, and the constructor of `XmssBasic` in full: C30, C39
-/

namespace Qrl.Props

open Outcome

/-- C30. For base seeds of one length the input of SHAKE256 tells the base seed and the index: pools with different base
seeds of the same length, or different indices, never hash the same string. -/
theorem C30_same_length (base base' : Bytes) (i j : Nat) (hl : base.length = base'.length) (hi : i < 2 ^ 64)
    (hj : j < 2 ^ 64) (h : treeSeedInput base i = treeSeedInput base' j) : base = base' ∧ i = j := by
  obtain ⟨h1, h2⟩ := List.append_inj h hl
  have := indexBytes_inj _ _ h2
  refine ⟨h1, ?_⟩
  omega

example : treeSeedInput [1, 2] 5 ≠ treeSeedInput [1, 3] 5 := by
  intro h
  have := (C30_same_length [1, 2] [1, 3] 5 5 rfl (by decide) (by decide) h).1
  simp at this

/-- C30. The trees of two different indices of one pool (in any state they were brought to) have different extended seeds
and different 96 secret bytes; otherwise two different strings with the same SHAKE256 value are at hand: the two inputs
named by the indices, or the two tree seeds. -/
theorem C30_trees_differ (cfg : PoolCfg) (i j : Nat) (hi : i < 2 ^ 64) (hj : j < 2 ^ 64) (hne : i ≠ j)
    (oi oj : XmssFast) (hoi : prepareTree cfg i = ok oi) (hoj : prepareTree cfg j = ok oj)
    (cs cs' : List Call) (rs rs' : List Reply) (o o' : XmssFast)
    (hrun : runCalls (XmssFast.call cfg.S) oi cs = some (rs, o))
    (hrun' : runCalls (XmssFast.call cfg.S) oj cs' = some (rs', o')) :
    (o.getExtendedSeed ≠ o'.getExtendedSeed ∧ (o.sk.drop 4).take 96 ≠ (o'.sk.drop 4).take 96) ∨
    (treeSeedInput cfg.baseSeed i ≠ treeSeedInput cfg.baseSeed j ∧
      shake256 48 (treeSeedInput cfg.baseSeed i) = shake256 48 (treeSeedInput cfg.baseSeed j)) ∨
    (oi.seed ≠ oj.seed ∧ shake256 96 oi.seed = shake256 96 oj.seed) := by
  have hin := C30_pool_inputs cfg.baseSeed i j hi hj hne
  by_cases h : (o.sk.drop 4).take 96 = (o'.sk.drop 4).take 96
  · rcases C63_secret_binds cfg.S _ _ _ _ _ _ _ _ oi oj hoi hoj cs cs' rs rs' o o' hrun hrun' h with e | e
    · exact Or.inr (Or.inl ⟨hin, e⟩)
    · obtain ⟨_, _, _, _, _, _, _, _, a4, _⟩ := fast_fresh hoi
      obtain ⟨_, _, _, _, _, _, _, _, b4, _⟩ := fast_fresh hoj
      rw [a4, b4]
      exact Or.inr (Or.inr e)
  by_cases h' : o.getExtendedSeed = o'.getExtendedSeed
  · exact Or.inr (Or.inl ⟨hin, (C63_extended_seed_binds cfg.S _ _ _ _ _ _ _ _ (by decide) (by decide) oi oj hoi hoj cs cs' rs
      rs' o o' hrun hrun' h').1⟩)
  · exact Or.inl ⟨h', h⟩

example : ∃ oi oj rs o, prepareTree demoCfg 0 = ok oi ∧ prepareTree demoCfg 1 = ok oj ∧
    runCalls (XmssFast.call demoCfg.S) oi [.sign [1], .setIndex 7] = some (rs, o) ∧
    ((o.getExtendedSeed ≠ oj.getExtendedSeed ∧ (o.sk.drop 4).take 96 ≠ (oj.sk.drop 4).take 96) ∨
     (treeSeedInput [7] 0 ≠ treeSeedInput [7] 1 ∧
      shake256 48 (treeSeedInput [7] 0) = shake256 48 (treeSeedInput [7] 1)) ∨
     (oi.seed ≠ oj.seed ∧ shake256 96 oi.seed = shake256 96 oj.seed)) := by
  obtain ⟨oi, hoi, _⟩ := (C29_pool_tree_value demoCfg 0).1 goodHeight4
  obtain ⟨oj, hoj, _⟩ := (C29_pool_tree_value demoCfg 1).1 goodHeight4
  obtain ⟨rs, o, hrun, _⟩ := C19_fast_defined demoCfg.S _ _ _ _ oi hoi [.sign [1], .setIndex 7]
  exact ⟨oi, oj, rs, o, hoi, hoj, hrun, C30_trees_differ demoCfg 0 1 (by decide) (by decide) (by decide) oi oj hoi hoj _ [] _ _
    o oj hrun rfl⟩

/-- C30 fails for base seeds of different lengths: the pool whose base seed has one more byte `b` hands out, at every index
`j`, the very tree the other pool hands out at index `256·(j + 1) + b - 1`. -/
theorem C30_other_length_refuted (cfg : PoolCfg) (b : UInt8) (j : Nat) (hj : 256 * (j + 1) + b.toNat < 2 ^ 64) :
    prepareTree { cfg with baseSeed := cfg.baseSeed ++ [b] } j = prepareTree cfg (256 * (j + 1) + b.toNat - 1) := by
  have hb := b.toNat_lt
  have e : indexBytes ((256 * (j + 1) + b.toNat - 1 + 1) % 2 ^ 64) = b :: indexBytes ((j + 1) % 2 ^ 64) := by
    rw [show 256 * (j + 1) + b.toNat - 1 + 1 = 256 * (j + 1) + b.toNat by omega, Nat.mod_eq_of_lt hj,
      Nat.mod_eq_of_lt (show j + 1 < 2 ^ 64 by omega), indexBytes.eq_def, dif_pos (by omega)]
    congr 1
    · rw [show (0xFF : Nat) = 2 ^ 8 - 1 from rfl, Nat.and_two_pow_sub_one_eq_mod, UInt8.ofNat_eq_iff_mod_eq_toNat]
      omega
    · congr 1
      rw [Nat.shiftRight_eq_div_pow]
      omega
  simp only [prepareTree, treeSeedInput, e, List.append_assoc, List.singleton_append]

/-- C30, the same in one sentence: two pools with different base seeds hand out the same key. -/
theorem C30_other_length_shared (S : Sha256) (base : Bytes) (height : UInt8) (hh : GoodHeight height) :
    ∃ (cfg cfg' : PoolCfg) (i j : Nat) (o : XmssFast), cfg.baseSeed = base ∧ cfg'.baseSeed = base ++ [0] ∧
      cfg.height = height ∧ cfg'.height = height ∧ i < 2 ^ 64 ∧ j < 2 ^ 64 ∧
      prepareTree cfg i = ok o ∧ prepareTree cfg' j = ok o := by
  obtain ⟨o, ho, _⟩ := (C29_pool_tree_value ⟨S, base, height, 0, 0⟩ 255).1 hh
  refine ⟨⟨S, base, height, 0, 0⟩, ⟨S, base ++ [0], height, 0, 0⟩, 255, 0, o, rfl, rfl, rfl, rfl, by decide, by decide, ho, ?_⟩
  exact (C30_other_length_refuted ⟨S, base, height, 0, 0⟩ 0 0 (by decide)).trans ho

example : ∃ (cfg cfg' : PoolCfg) (i j : Nat) (o : XmssFast), cfg.baseSeed = [1, 2, 3] ∧ cfg'.baseSeed = [1, 2, 3] ++ [0] ∧
      cfg.height = 4 ∧ cfg'.height = 4 ∧ i < 2 ^ 64 ∧ j < 2 ^ 64 ∧ prepareTree cfg i = ok o ∧ prepareTree cfg' j = ok o :=
  C30_other_length_shared toySha [1, 2, 3] 4 goodHeight4

/-- C39. Even heights from 32 on pass every check of the `XmssBasic` constructor too, and key generation then shifts a
32-bit one by 32 or more (undefined behaviour). -/
theorem C39_basic_tall_refuted (S : Sha256) (seed : Bytes) (height : UInt8) (hf af w : Nat)
    (hw : w = 2 ∨ w = 4 ∨ w = 16 ∨ w = 256) (hs : seed.length = 48) (h32 : 32 ≤ height.toNat)
    (he : height.toNat % 2 = 0) : XmssBasic.new S seed height hf af w = .ub := by
  obtain ⟨p, k, q, hp, hsp, h1, h2, hk, hb⟩ := base_ok hw
  have hu := height.toNat_lt
  have h254 : ¬ height.toNat > 254 := by omega
  have hc : ¬ (2 ≥ height.toNat ∨ (height.toNat - 2) % 2 ≠ 0) := by omega
  simp only [XmssBasic.new, baseCtorCheck, hs, h254, ne_eq, not_true, if_false, ok_bind]
  rw [if_neg hc, xmssSetParams, if_neg hc, hp, ok_bind, ok_bind, withHash]
  cases hf' : HashFn.ofNat? hf with
  | none => rfl
  | some f =>
    have : xmssGenkeypair S f ⟨p, height.toNat⟩ seed = ub := by
      rw [xmssGenkeypair, slice_eq_ok (by omega), ok_bind]
      simp only [treehash]
      rw [if_pos h32]; rfl
    simp only [this]
    rfl

example : XmssBasic.new toySha zeroSeed 32 0 0 4 = .ub :=
  C39_basic_tall_refuted toySha zeroSeed 32 0 0 4 (by omega) rfl (by decide) (by decide)

/-- C39. The `XmssBasic` constructor (`w` one of 2, 4, 16, 256) succeeds exactly for a 48-byte seed, an even height 4..30 and
one of the three hash functions. -/
theorem C39_basic_succeeds (S : Sha256) (seed : Bytes) (height : UInt8) (hf af w : Nat)
    (hw : w = 2 ∨ w = 4 ∨ w = 16 ∨ w = 256) :
    (∃ o, XmssBasic.new S seed height hf af w = ok o) ↔ seed.length = 48 ∧ GoodHeight height ∧ hf ≤ 2 := by
  constructor
  · rintro ⟨o, ho⟩
    have hno : ∀ e, XmssBasic.new S seed height hf af w ≠ .throw e := by intro e h; rw [h] at ho; cases ho
    have hc := mt (C39_basic_throws S seed height hf af w hw .invalidArgument).mpr (hno _)
    have hs : seed.length = 48 := Classical.byContradiction fun h => hc ⟨rfl, Or.inl h⟩
    have h4 : ¬ height.toNat < 4 := fun h => hc ⟨rfl, Or.inr (Or.inl h)⟩
    have he : ¬ height.toNat % 2 = 1 := fun h => hc ⟨rfl, Or.inr (Or.inr h)⟩
    have h32 : height.toNat < 32 := Nat.lt_of_not_le fun h => by
      rw [C39_basic_tall_refuted S seed height hf af w hw hs h (by omega)] at ho; cases ho
    have hh : GoodHeight height := ⟨by omega, by omega, by omega⟩
    refine ⟨hs, hh, ?_⟩
    apply Classical.byContradiction
    intro h
    rw [C36_basic_unsupported S seed height hf af w hw hs hh (by omega)] at ho
    cases ho
  · rintro ⟨hs, hh, h2⟩
    obtain ⟨f, rfl⟩ : ∃ f : HashFn, hf = f.toNat := by
      rcases (show hf = 0 ∨ hf = 1 ∨ hf = 2 by omega) with rfl | rfl | rfl
      · exact ⟨.sha2_256, rfl⟩
      · exact ⟨.shake_128, rfl⟩
      · exact ⟨.shake_256, rfl⟩
    obtain ⟨o, ho, _⟩ := C15_basic_key S seed height f af w hw hs hh
    exact ⟨o, ho⟩

example : ∃ o, XmssBasic.new toySha zeroSeed 4 2 0 256 = ok o :=
  (C39_basic_succeeds toySha zeroSeed 4 2 0 256 (by omega)).mpr ⟨rfl, goodHeight4, by omega⟩

end Qrl.Props
