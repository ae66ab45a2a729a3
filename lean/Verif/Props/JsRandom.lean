import Verif.Model.JsRandom
/-!
# C48: `getRandomSeed` of the JavaScript bundle fails closed
-/

namespace Qrl.Props

theorem pushLoop_eq (bs : Bytes) : ∀ v, pushLoop v bs = v ++ bs := by
  induction bs with
  | nil => intro v; simp [pushLoop]
  | cons b bs ih => intro v; rw [pushLoop, ih]; simp

theorem allZeroLoop_iff (bs : Bytes) : allZeroLoop bs = true ↔ ∀ b ∈ bs, b = 0 := by
  induction bs with
  | nil => simp [allZeroLoop]
  | cons b bs ih =>
    rw [allZeroLoop]
    by_cases h : b = 0
    · simp [h, ih]
    · simp [h]

/-- C48. Whenever `getRandomSeed(size)` returns, it returns exactly the bytes the platform's cryptographic generator
wrote for this request: `size` of them (48 when no size is given), and not all zero if there are 16 or more. -/
theorem C48_returns_platform_bytes (crypto : Option JsCrypto) (size : Option Int) (r : Bytes)
    (h : jsGetRandomSeed crypto size = .ok r) :
    ∃ c, crypto = some c ∧ c.values (size.getD 48).toNat = some r ∧ 0 < size.getD 48 ∧
      (r.length : Int) = size.getD 48 ∧ (16 ≤ r.length → ∃ b ∈ r, b ≠ 0) := by
  rw [jsGetRandomSeed.eq_def] at h
  dsimp only at h
  split at h
  · cases h
  · rename_i hs
    cases crypto with
    | none => cases h
    | some c =>
      dsimp only at h
      cases hv : c.values (size.getD 48).toNat with
      | none => rw [hv] at h; cases h
      | some bytes =>
        rw [hv] at h
        dsimp only at h
        split at h
        · cases h
        · rename_i hz
          rw [pushLoop_eq] at h
          cases h
          have hl := c.length_values _ _ hv
          refine ⟨c, rfl, hv, by omega, by simp only [List.nil_append]; omega, ?_⟩
          intro h16
          apply Classical.byContradiction
          intro hne
          apply hz
          refine ⟨by simp only [List.nil_append] at h16; omega, (allZeroLoop_iff _).mpr ?_⟩
          intro b hb
          apply Classical.byContradiction
          intro hb0
          exact hne ⟨b, by simpa using hb, hb0⟩

/-- C48. It fails closed: without a cryptographic generator, with a generator that throws, with a size of zero or less,
or with an all-zero answer to a request of 16 bytes or more, it throws; in all other cases it returns. -/
theorem C48_throws_iff (crypto : Option JsCrypto) (size : Option Int) :
    (∃ e, jsGetRandomSeed crypto size = .error e) ↔
      (size.getD 48 ≤ 0 ∨ crypto = none ∨ (∃ c, crypto = some c ∧ (c.values (size.getD 48).toNat = none ∨
        (16 ≤ size.getD 48 ∧ c.values (size.getD 48).toNat = some (List.replicate (size.getD 48).toNat 0))))) := by
  rw [jsGetRandomSeed.eq_def]
  dsimp only
  by_cases hs : size.getD 48 > 0
  · rw [if_neg (by omega)]
    cases crypto with
    | none => simp
    | some c =>
      cases hv : c.values (size.getD 48).toNat with
      | none => simp [hv]
      | some bytes =>
        have hl := c.length_values _ _ hv
        have hz : allZeroLoop bytes = true ↔ bytes = List.replicate (size.getD 48).toNat 0 := by
          rw [allZeroLoop_iff, List.eq_replicate_iff]
          exact ⟨fun h => ⟨hl, h⟩, fun h => h.2⟩
        simp only [hv]
        split
        · rename_i h
          constructor
          · intro _
            exact Or.inr (Or.inr ⟨c, rfl, Or.inr ⟨h.1, by rw [← hz.mp h.2]; exact hv⟩⟩)
          · intro _; exact ⟨_, rfl⟩
        · rename_i h
          constructor
          · rintro ⟨e, he⟩; cases he
          · rintro (h1 | h1 | ⟨c', h1, h2 | ⟨h2, h3⟩⟩)
            · omega
            · cases h1
            · cases h1; rw [hv] at h2; cases h2
            · cases h1; rw [hv] at h3; cases h3
              exact absurd ⟨h2, hz.mpr rfl⟩ h
  · rw [if_pos hs]
    constructor
    · intro _; exact Or.inl (by omega)
    · intro _; exact ⟨_, rfl⟩

/-- The default size is 48, with a generator that writes 7s. -/
example : jsGetRandomSeed (some ⟨fun n => some (List.replicate n 7), by simp⟩) none =
    .ok (List.replicate 48 7) := by rfl

end Qrl.Props
