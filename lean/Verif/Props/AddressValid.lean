import Verif.Props.Identity
/-!
# C11: which addresses are valid, and which of them are somebody's
-/

namespace Qrl.Props

open Outcome Spec

/-- C11. Two different valid addresses differ in their first 35 bytes; if they have the same last four bytes, the SHA-256 values of two
different 35-byte strings agree in their last four bytes. So of the mistakes in the first 35 bytes, only such a one goes unnoticed. -/
theorem C11_corrupted (S : Sha256) (a a' : Bytes) (h : addressIsValid S a = ok true) (h' : addressIsValid S a' = ok true) (hne : a ≠ a') :
    a.take 35 ≠ a'.take 35 ∧ (a.drop 35 = a'.drop 35 → (S.hash (a.take 35)).drop 28 = (S.hash (a'.take 35)).drop 28) := by
  obtain ⟨r, hr, hiff⟩ := C11_address_valid S a
  obtain ⟨r', hr', hiff'⟩ := C11_address_valid S a'
  rw [h] at hr; cases hr
  rw [h'] at hr'; cases hr'
  have e := (hiff.mp rfl).2.2
  have e' := (hiff'.mp rfl).2.2
  refine ⟨fun ht => hne ?_, fun hd => by rw [← e, ← e', hd]⟩
  rw [← List.take_append_drop 35 a, ← List.take_append_drop 35 a', e, e', ht]

/-- C11, refuted: that a valid address is the address of some public key. Every 35 bytes with address format 0 have a completion that is
valid; but with a signature-type nibble or a third byte other than 0 no public key has that address, and with an unsupported hash
function or a height below 4 no `XmssFast` in any state has it. -/
theorem C11_unowned_refuted (S : Sha256) (b0 b1 b2 : UInt8) (rest : Bytes) (hr : rest.length = 32) (hf : b1.toNat / 16 = 0) :
    ∃ c, c.length = 4 ∧ addressIsValid S (b0 :: b1 :: b2 :: rest ++ c) = ok true ∧
      (b0.toNat / 16 ≠ 0 ∨ b2 ≠ 0 → ∀ epk, getAddress S epk ≠ ok (b0 :: b1 :: b2 :: rest ++ c)) ∧
      (3 ≤ b0.toNat % 16 ∨ b1.toNat % 16 < 2 → ∀ seed height h af o0 cs rs o, XmssFast.new S seed height h af = ok o0 →
        runCalls (XmssFast.call S) o0 cs = some (rs, o) → o.getAddress S ≠ ok (b0 :: b1 :: b2 :: rest ++ c)) := by
  have hl : (b0 :: b1 :: b2 :: rest).length = 35 := by simp [hr]
  have hcl : ((S.hash (b0 :: b1 :: b2 :: rest)).drop 28).length = 4 := by simp [S.length_hash]
  refine ⟨(S.hash (b0 :: b1 :: b2 :: rest)).drop 28, hcl, ?_, ?_, ?_⟩
  · obtain ⟨r, hr', hiff⟩ := C11_address_valid S (b0 :: b1 :: b2 :: rest ++ (S.hash (b0 :: b1 :: b2 :: rest)).drop 28)
    have : r = true := hiff.mpr ⟨by rw [List.length_append, hl, hcl], ⟨b1, rfl, hf⟩, by rw [List.drop_left' hl, List.take_left' hl]⟩
    rw [hr', this]
  · intro hb epk he
    obtain ⟨hlen, b, hb1, hb2⟩ := (C10_address_throws S epk).1.mp ⟨_, he⟩
    obtain ⟨d, hd⟩ := (C07_descriptor_throws (epk.take 3)).2.mpr (by rw [List.length_take]; omega)
    obtain ⟨x0, x1, x2, hx⟩ := take3_of (b := epk) (by omega)
    have h1 : x1 = b := by
      have := congrArg (fun l => l[1]?) hx
      simp [hb1] at this
      exact this.symm
    rw [hx, fromBytes_three] at hd
    have hv := C10_address_value S epk d hlen (by rw [hx, fromBytes_three]; exact hd) (by
      rw [← Outcome.ok.inj hd]; simp only []; rw [h1]; exact hb2)
    rw [he] at hv
    have hv := Outcome.ok.inj hv
    rw [C07_descriptor_normalise x0 x1 x2 d (by rw [fromBytes_three]; exact hd)] at hv
    simp only [List.cons_append, List.nil_append, List.cons.injEq] at hv
    obtain ⟨v0, -, v2, -⟩ := hv
    rcases hb with hb | hb
    · apply hb
      rw [v0, UInt8.toNat_ofNat_of_lt' (show x0.toNat % 16 < 256 by omega)]
      omega
    · exact hb v2
  · intro hb seed height h af o0 cs rs o hnew hrun ha
    have hst := C26_fast_stable S seed height h af o0 hnew cs rs o hrun
    obtain ⟨_, hg, f, f1, f2, e1, e2, e3, e4, p, k, q, hp, e5, H⟩ := fast_fresh hnew
    rw [hst.2.2.2.2.2.1, XmssBase.getAddress, getPK_eq _ o0.toXmssBase 0 H.hsk, ok_bind] at ha
    obtain ⟨t1, t2⟩ := C63_address_tells S _ _ ha
    obtain ⟨-, p2, p3, -⟩ := pk_fields (keyOf S f 16 height.toNat (lenW_pos (by omega)) seed) o0.toXmssBase f (by rw [e2, f1]) (by rw [e1]; exact hg)
    rw [p2] at t1
    rw [p3] at t2
    have t1 : b0.toNat % 16 = f.toNat := t1
    have t2 : 2 * (b1.toNat % 16) = o0.height.toNat := t2
    have hf2 : f.toNat ≤ 2 := by cases f <;> decide
    rw [e1] at t2
    have := hg.1
    omega

/-- A valid address that is nobody's: third byte 7. -/
example : ∃ c, addressIsValid toySha (0 :: 2 :: 7 :: List.replicate 32 1 ++ c) = ok true ∧
    ∀ epk, getAddress toySha epk ≠ ok (0 :: 2 :: 7 :: List.replicate 32 1 ++ c) := by
  obtain ⟨c, -, h1, h2, -⟩ := C11_unowned_refuted toySha 0 2 7 (List.replicate 32 1) (by simp) (by decide)
  exact ⟨c, h1, h2 (Or.inr (by decide))⟩

/-- Two valid addresses with the same checksum (the toy hash function has collisions). -/
example : ∃ a a', addressIsValid toySha a = ok true ∧ addressIsValid toySha a' = ok true ∧ a ≠ a' ∧ a.drop 35 = a'.drop 35 := by
  obtain ⟨c, hc, h1, -⟩ := C11_unowned_refuted toySha 0 2 7 (List.replicate 32 1) (by simp) (by decide)
  obtain ⟨c', hc', h1', -⟩ := C11_unowned_refuted toySha 0 2 8 (List.replicate 32 1) (by simp) (by decide)
  refine ⟨_, _, h1, h1', by simp, ?_⟩
  obtain ⟨r, hr, hi⟩ := C11_address_valid toySha (0 :: 2 :: 7 :: List.replicate 32 1 ++ c)
  obtain ⟨r', hr', hi'⟩ := C11_address_valid toySha (0 :: 2 :: 8 :: List.replicate 32 1 ++ c')
  rw [h1] at hr; cases hr
  rw [h1'] at hr'; cases hr'
  rw [(hi.mp rfl).2.2, (hi'.mp rfl).2.2]
  rfl

end Qrl.Props
