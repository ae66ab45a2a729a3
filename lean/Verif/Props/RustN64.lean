import Verif.Proof.RustN64
/-!
# C98: the Rust hash functions for SHAKE and `n = 64`
-/

namespace Qrl.Props

open Rs Rs.Res

/-- C98. `prf` with SHAKE-128 is the pseudorandom function of RFC 8391 for `n = 64`. -/
theorem C98_prf_shake128 (S : Sha256) (m key old : Bytes) (hm : m.length = 32) (hk : key.length = 64) :
    Rs.prfN S .shake_128 64 m key old = ok (0, Spec.PRFn (Qrl.shake128 64) 64 key m) :=
  prfN_64_128 S m key old hm hk

/-- C98. That `prf` with SHAKE-256 and `n = 64` is a pseudorandom function is false: it succeeds, and its value only depends on the key and the first
8 of the 32 bytes of the input. -/
theorem C98_prf_shake256_refuted (S : Sha256) (m m' key old old' : Bytes) (hm : m.length = 32) (hm' : m'.length = 32) (hk : 64 ≤ key.length)
    (h : m.take 8 = m'.take 8) :
    ∃ y, y.length = 64 ∧ Rs.prfN S .shake_256 64 m key old = ok (0, y) ∧ Rs.prfN S .shake_256 64 m' key old' = ok (0, y) := by
  refine ⟨_, ?_, prfN_64_256 S m key old hm hk, ?_⟩
  · simp
  · rw [h]; exact prfN_64_256 S m' key old' hm' hk

/-- C98. So all secret values that `expand_seed` derives for a one-time key are the same. -/
theorem C98_expand_seed_refuted (S : Sha256) (key : Bytes) (hk : 64 ≤ key.length) (buf : List Bytes) (hb : buf.length ≤ 2 ^ 32) :
    ∃ y, Rs.expandSeedN S .shake_256 64 key 0 buf = ok (List.replicate buf.length y) :=
  ⟨_, expandSeedN_64_256 S key hk buf 0 (by omega)⟩

/-- C98. And the seeds that `get_seed` derives for two one-time keys of a tree are the same: words 2 to 7 of the address do not count. -/
theorem C98_get_seed_refuted (S : Sha256) (sk : Bytes) (hk : 64 ≤ sk.length) (a : Adrs) (i j : Nat) :
    ∃ y a1 a2, Rs.getSeedN S .shake_256 64 sk (Rs.setOTS a i) = ok (y, a1) ∧ Rs.getSeedN S .shake_256 64 sk (Rs.setOTS a j) = ok (y, a2) := by
  exact ⟨_, _, _, getSeedN_64 S sk hk _, getSeedN_64 S sk hk _⟩

/-- C98. That `hash_f` binds its input is false for `n = 64`: with SHAKE-128 only the first 40, with SHAKE-256 only the first 8 of the 64 bytes count. -/
theorem C98_hash_f_refuted (S : Sha256) (x x' ps : Bytes) (a : Adrs) (old : Bytes) (hx : x.length = 64) (hx' : x'.length = 64) :
    (x.take 40 = x'.take 40 → Rs.hashFN S .shake_128 64 x ps a old = Rs.hashFN S .shake_128 64 x' ps a old) ∧
    (x.take 8 = x'.take 8 → Rs.hashFN S .shake_256 64 x ps a old = Rs.hashFN S .shake_256 64 x' ps a old) :=
  ⟨fun h => hashFN_64_same S .shake_128 (by decide) x x' ps a old hx hx' h,
    fun h => hashFN_64_same S .shake_256 (by decide) x x' ps a old hx hx' h⟩

/-- C98. That `hash_h` binds both children is false for `n = 64`: the right child does not count. -/
theorem C98_hash_h_refuted (S : Sha256) (hf : HashFn) (hs : hf = .shake_128 ∨ hf = .shake_256) (l r r' ps : Bytes) (a : Adrs) (old : Bytes)
    (hl : l.length = 64) (hr : r.length = 64) (hr' : r'.length = 64) :
    Rs.hashHN S hf 64 (l ++ r) ps a old = Rs.hashHN S hf 64 (l ++ r') ps a old := by
  refine hashHN_64_same S hf (by rcases hs with rfl | rfl <;> decide) _ _ ps a old (by rw [List.length_append]; omega)
    (by rw [List.length_append]; omega) ?_
  have : room64 hf ≤ l.length := by rcases hs with rfl | rfl <;> simp only [room64] <;> omega
  rw [List.take_append_of_le_length this, List.take_append_of_le_length this]

/-! ## The hypotheses are met -/

/-- The addresses of the key and of the mask of one chain step, which only differ in the last word. -/
example (S : Sha256) : ∃ y : Bytes, y.length = 64 ∧ Rs.prfN S .shake_256 64 (Rs.adrsBytes (Rs.setKeyAndMask {} 0)) (List.replicate 64 9) [] = ok (0, y) ∧
    Rs.prfN S .shake_256 64 (Rs.adrsBytes (Rs.setKeyAndMask {} 1)) (List.replicate 64 9) [] = ok (0, y) :=
  C98_prf_shake256_refuted S _ _ _ [] [] (length_adrsBytes _) (length_adrsBytes _) (by rw [List.length_replicate]) (by decide +kernel)

/-- All 131 secret values of a key for `w = 16` are the same. -/
example (S : Sha256) : ∃ y, Rs.expandSeedN S .shake_256 64 (List.replicate 64 9) 0 (List.replicate 131 []) = ok (List.replicate 131 y) := by
  have := C98_expand_seed_refuted S (List.replicate 64 9) (by rw [List.length_replicate]) (List.replicate 131 [])
    (by rw [List.length_replicate]; decide)
  rwa [List.length_replicate] at this

/-- Leaves 3 and 1000. -/
example (S : Sha256) : ∃ y a1 a2, Rs.getSeedN S .shake_256 64 (List.replicate 200 5) (Rs.setOTS {} 3) = ok (y, a1) ∧
    Rs.getSeedN S .shake_256 64 (List.replicate 200 5) (Rs.setOTS {} 1000) = ok (y, a2) :=
  C98_get_seed_refuted S _ (by rw [List.length_replicate]; decide) {} 3 1000

example (S : Sha256) : Rs.prfN S .shake_128 64 (List.replicate 32 1) (List.replicate 64 2) [] =
    ok (0, Spec.PRFn (Qrl.shake128 64) 64 (List.replicate 64 2) (List.replicate 32 1)) :=
  C98_prf_shake128 S _ _ [] List.length_replicate List.length_replicate

example (S : Sha256) (ps : Bytes) (a : Adrs) : Rs.hashHN S .shake_128 64 (List.replicate 64 1 ++ List.replicate 64 2) ps a [] =
    Rs.hashHN S .shake_128 64 (List.replicate 64 1 ++ List.replicate 64 3) ps a [] :=
  C98_hash_h_refuted S .shake_128 (.inl rfl) _ _ _ ps a [] List.length_replicate List.length_replicate List.length_replicate

example (S : Sha256) (ps : Bytes) (a : Adrs) : Rs.hashFN S .shake_256 64 (List.replicate 8 1 ++ List.replicate 56 2) ps a [] =
    Rs.hashFN S .shake_256 64 (List.replicate 8 1 ++ List.replicate 56 3) ps a [] :=
  (C98_hash_f_refuted S _ _ ps a [] (by rw [List.length_append, List.length_replicate, List.length_replicate])
    (by rw [List.length_append, List.length_replicate, List.length_replicate])).2 (by decide)

end Qrl.Props
