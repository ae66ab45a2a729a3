import Verif.Model.UpdateSk
import Verif.Props.Verify
/-!
# C47: `xmss_updateSK`
-/

namespace Qrl.Props

open Outcome

/-- The index of a secret key: its first four bytes, big endian. -/
def skIndex (sk : Bytes) : Nat := Spec.byteVal (sk.take 4)

/-- C47. `xmss_updateSK(sk, k)` on any key of at least 4 bytes: if the index is `k` or more it returns -1 and changes
nothing; otherwise it returns 0, sets the index to the low 32 bits of `k` and changes no other byte. -/
theorem C47_updateSK (sk : Bytes) (k : UInt64) (h : 4 ≤ sk.length) :
    (k.toNat ≤ skIndex sk → xmssUpdateSK sk k = ok (-1, sk)) ∧
    (skIndex sk < k.toNat → ∃ sk', xmssUpdateSK sk k = ok (0, sk') ∧ skIndex sk' = k.toNat % 2 ^ 32 ∧
      sk'.drop 4 = sk.drop 4 ∧ sk'.length = sk.length) := by
  refine ⟨fun hk => ?_, fun hk => ?_⟩
  · rw [xmssUpdateSK, be32At_eq h, ok_bind, if_pos (show Spec.byteVal (sk.take 4) ≥ k.toNat from hk)]
  · rw [xmssUpdateSK, be32At_eq h, ok_bind, if_neg (by rw [skIndex] at hk; omega)]
    match sk, h with
    | a :: b :: c :: d :: rest, _ =>
      simp only [wr, List.length_cons, show 3 < rest.length + 1 + 1 + 1 + 1 by omega,
        show 2 < rest.length + 1 + 1 + 1 + 1 by omega, show 1 < rest.length + 1 + 1 + 1 + 1 by omega,
        show 0 < rest.length + 1 + 1 + 1 + 1 by omega, if_true, ok_bind, List.set_cons_succ, List.set_cons_zero]
      refine ⟨_, rfl, ?_, rfl, by simp⟩
      simp only [skIndex, List.take_succ_cons, List.take_zero, Spec.byteVal, List.foldl_cons, List.foldl_nil,
        UInt8.toNat_ofNat', Nat.shiftRight_eq_div_pow]
      omega

/-- C47. For `k` below `2^32` the index never goes down, whatever the call returns. -/
theorem C47_updateSK_forward (sk sk' : Bytes) (k : UInt64) (h : 4 ≤ sk.length) (hk : k.toNat < 2 ^ 32) (rc : Int)
    (hu : xmssUpdateSK sk k = ok (rc, sk')) : skIndex sk ≤ skIndex sk' ∧ k.toNat ≤ skIndex sk' := by
  obtain ⟨h1, h2⟩ := C47_updateSK sk k h
  rcases Nat.lt_or_ge (skIndex sk) k.toNat with hlt | hge
  · obtain ⟨s, e, hs, _⟩ := h2 hlt
    rw [e] at hu; cases hu
    rw [hs, Nat.mod_eq_of_lt hk]; omega
  · rw [h1 hge] at hu; cases hu; omega

/-- C47 fails for larger `k`: with `k = 2^32` the call reports success and sets the index of any key back to 0, so all
its one-time keys would be used again. -/
theorem C47_updateSK_rewind_refuted (sk : Bytes) (h : 4 ≤ sk.length) :
    ∃ sk', xmssUpdateSK sk (2 ^ 32) = ok (0, sk') ∧ skIndex sk' = 0 := by
  have hlt : skIndex sk < (2 ^ 32 : UInt64).toNat := by
    have : (2 ^ 32 : UInt64).toNat = 2 ^ 32 := by decide
    rw [this, skIndex]
    match sk, h with
    | a :: b :: c :: d :: rest, _ =>
      have ha := a.toNat_lt; have hb := b.toNat_lt; have hc := c.toNat_lt; have hd := d.toNat_lt
      simp only [List.take_succ_cons, List.take_zero, Spec.byteVal, List.foldl_cons, List.foldl_nil]
      omega
  obtain ⟨sk', e, hi, _⟩ := (C47_updateSK sk (2 ^ 32) h).2 hlt
  exact ⟨sk', e, by rw [hi]; decide⟩

/-- Cases of both kinds: index 5 moves to 9, and stays when asked for 5. -/
example : xmssUpdateSK [0, 0, 0, 5, 7] 9 = ok (0, [0, 0, 0, 9, 7]) ∧ xmssUpdateSK [0, 0, 0, 5, 7] 5 = ok (-1, [0, 0, 0, 5, 7]) := by
  decide +kernel

end Qrl.Props
