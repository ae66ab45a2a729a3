import Verif.Proof.BdsKApi
/-!
The traversal parameter `κ = 28` with height 30, where the offsets of retained nodes wrap around: which retained nodes survive key
generation, and the path that the sixteenth round makes.
-/

namespace Qrl.BK

open Outcome

theorem rowOff28 : rowOff 28 = 134217700 := by decide

theorem rowOff27 : rowOff 27 = 67108837 := by decide

/-- The first slots of the lowest row are not written again. -/
theorem good_first {y : Nat} (hy : y < 28) : Good 28 30 28 y := by
  intro d' y' hd' hk' hy' hs
  have h2 := rowOff_lt (by omega) hk' hy'
  have e1 := slot_mod (d := d') (by omega) hk' (by omega) hy'
  have e2 := slot_mod (d := 28) (κ := 28) (y := y) (by omega) (by omega) (by omega) (by omega)
  rw [e1, e2, rowOff28] at hs
  left
  refine rowOff_inj (by omega) (by omega) hy' (by omega) ?_
  rw [rowOff28]
  omega

/-- The node that ends up in the slot of node 3 of level 3: node 134217733 of level 2. -/
theorem good_wrapped : Good 28 30 28 67108865 ∧ slot 27 0 = slot 28 67108865 := by
  have e2 := slot_mod (d := 28) (κ := 28) (y := 67108865) (by omega) (by omega) (by omega) (by omega)
  have e3 := slot_mod (d := 27) (κ := 28) (y := 0) (by omega) (by omega) (by omega) (by omega)
  rw [rowOff28] at e2
  rw [rowOff27] at e3
  refine ⟨?_, by omega⟩
  intro d' y' hd' hk' hy' hs
  have h2 := rowOff_lt (by omega) hk' hy'
  have e1 := slot_mod (d := d') (by omega) hk' (by omega) hy'
  rw [e1, e2] at hs
  have : rowOff d' + y' = 67108837 ∨ rowOff d' + y' = 201326565 := by omega
  rcases this with h | h
  · obtain ⟨rfl, rfl⟩ := rowOff_inj (d := d') (d' := 27) (y := y') (y' := 0) (by omega) (by omega) hy' (by omega) (by rw [rowOff27]; omega)
    right; left
    decide
  · left
    exact rowOff_inj (by omega) (by omega) hy' (by omega) (by rw [rowOff28]; omega)

theorem small_dvd {i t : Nat} (h2 : 2 ≤ i) (ht : t + 1 ≤ 17) (hd : 2 ^ (i + 1) ∣ t + 1) : (i = 2 ∧ t = 7) ∨ (t = 15 ∧ (i = 2 ∨ i = 3)) := by
  have h3 : i ≤ 3 := by
    apply Classical.byContradiction
    intro hc
    have h1 : 2 ^ 5 ≤ 2 ^ (i + 1) := Nat.pow_le_pow_right (by omega) (by omega)
    have := Nat.le_of_dvd (by omega) hd
    omega
  have : i = 2 ∨ i = 3 := by omega
  rcases this with rfl | rfl
  · have : (8 : Nat) ∣ t + 1 := hd
    omega
  · have : (16 : Nat) ∣ t + 1 := hd
    omega

theorem reads_small {t : Nat} (ht : t < 15) : Reads 28 30 t := by
  intro i hi hk hd
  rcases small_dvd (by omega) (by omega) hd with ⟨rfl, rfl⟩ | ⟨h, -⟩
  · exact good_first (by decide)
  · omega

/-- The path after sixteen rounds: wrong at level 3. -/
def wrongPath (N : Nat → Nat → Bytes) : Nat → Bytes :=
  nextPath 28 30 N 15 (path N 15) (fun i => if i = 3 then N 2 134217733 else N 2 5)

theorem wrongPath_three (N : Nat → Nat → Bytes) : wrongPath N 3 = N 2 134217733 := by
  rw [wrongPath, nextPath, if_pos (by decide), if_pos rfl]

theorem wrongPath_zero (N : Nat → Nat → Bytes) : wrongPath N 0 = path N 16 0 := by
  rw [wrongPath, nextPath, if_neg (by decide), if_pos (by decide)]

theorem length_wrongPath {N : Nat → Nat → Bytes} (hN : ∀ l i : Nat, (N l i).length = 32) (i : Nat) : (wrongPath N i).length = 32 := by
  rw [wrongPath, nextPath, path, path]
  split
  · split <;> exact hN _ _
  · split <;> exact hN _ _

/-- The state after sixteen rounds, and one more round. -/
theorem adv_large (S : Sha256) (hf : HashFn) (p : XmssParams) (sk ps : Bytes) (h1 : 1 ≤ p.wots.len) (hh : p.h = 30) {st0 : BdsState}
    (H : BdsInv 28 (Spec.node (hf.prim S) p.wots.w p.wots.len sk ps) p.h 0 (fun _ => none) st0) :
    ∃ st st', advanceLoop 28 S hf sk p ps 16 0 st0 = ok st ∧
      (∀ i, i < p.h → st.auth[i]? = some (some (wrongPath (Spec.node (hf.prim S) p.wots.w p.wots.len sk ps) i))) ∧
      ∀ a b c d e : Nat, (bdsRound 28 S hf st 16 sk p ps ⟨0, 0, 0, a, b, c, d, e⟩ >>= fun st =>
        bdsTreehashUpdate 28 S hf sk p ps ⟨0, 0, 0, a, b, c, d, e⟩ ((p.h - 28) >>> 1) st) = ok st' := by
  have hk : KSet 28 p.h := ⟨by omega, by omega, by omega⟩
  obtain ⟨e1, T, I⟩ := adv_invR S hf p sk ps h1 hk (by omega) (by omega) (by omega) H 15 (by rw [hh]; omega)
    (fun u hu => by rw [hh]; exact reads_small hu)
  generalize stAt 28 S hf p sk ps st0 15 = s15 at e1 I
  obtain ⟨s, s16, T16, r1, r2, J⟩ := bdsAdvance_eqP (κ := 28) (by omega) (by omega) S hf sk ps p h1 hk.2.2 (by omega) (by omega) (by omega)
    (t := 15) (by rw [hh]; omega)
    (R := fun i => if i = 3 then Spec.node (hf.prim S) p.wots.w p.wots.len sk ps 2 134217733 else
      Spec.node (hf.prim S) p.wots.w p.wots.len sk ps 2 5) I (fun _ _ _ => rfl) (by
      intro i hi hk hd
      rw [hh] at I hk ⊢
      rcases small_dvd (by omega) (by omega) hd with ⟨-, h⟩ | ⟨-, rfl | rfl⟩
      · omega
      · exact I.auth.retain 28 1 (by omega) (by omega) (by omega) (good_first (by omega))
      · show s15.retain[slot 27 0]? = _
        rw [good_wrapped.2]
        exact I.auth.retain 28 67108865 (by omega) (by omega) (by omega) good_wrapped.1)
    0 0 0 0 0 0 0 0 0 0
  rw [hh] at J
  change BdsInvP 28 _ 30 16 (wrongPath _) T16 s16 at J
  rw [← hh] at J
  obtain ⟨s', s17, T17, q1, q2, -⟩ := bdsAdvance_eqP (κ := 28) (by omega) (by omega) S hf sk ps p h1 hk.2.2 (by omega) (by omega) (by omega)
    (t := 16) (by rw [hh]; omega) (R := fun _ => []) J (by
      intro i hi hd
      have : i = 0 := by
        apply Classical.byContradiction
        intro hc
        have h2 : 2 ^ 1 ∣ 2 ^ i := Nat.pow_dvd_pow 2 (by omega)
        have := Nat.dvd_trans h2 hd
        omega
      subst this
      exact wrongPath_zero _) (by
      intro i hi hk hd
      rcases small_dvd (by omega) (by omega) hd with ⟨-, h⟩ | ⟨h, -⟩ <;> omega)
    0 0 0 0 0 0 0 0 0 0
  refine ⟨s16, s17, ?_, J.auth.auth, ?_⟩
  · rw [show (16 : Nat) = 15 + 1 from rfl, advanceLoop_add S hf sk p ps 15 1, e1, ok_bind, Nat.zero_add, advanceLoop,
      show bdsRound 28 S hf s15 15 sk p ps {} = ok s from r1, ok_bind,
      show bdsTreehashUpdate 28 S hf sk p ps {} ((p.h - 28) >>> 1) s = ok s16 from r2, ok_bind]
    rfl
  · intro a b c d e
    rw [bdsRound_addr]
    simp only [bdsTreehashUpdate_addr]
    rw [show bdsRound 28 S hf s16 16 sk p ps {} = ok s' from q1, ok_bind]
    exact q2

end Qrl.BK
