import Verif.Spec.Sig
import Verif.Proof.Digits
import Verif.Proof.Wots

namespace Qrl

open Outcome

theorem byteVal_eq (m : Bytes) : Spec.byteVal m = byteValue m := by
  rw [Spec.byteVal, byteValue, digitValue, List.foldl_map]

theorem digitValue_drop (w : Nat) (l : List Nat) (n : Nat) (h : ∀ d ∈ l, d < w) :
    digitValue w (l.drop n) = digitValue w l % w ^ (l.length - n) := by
  have e := digitValue_append w (l.take n) (l.drop n)
  rw [List.take_append_drop, List.length_drop] at e
  have hl := digitValue_lt w (l.drop n) fun d hd => h d (List.mem_of_mem_drop hd)
  rw [List.length_drop] at hl
  rw [e, Nat.mul_comm, Nat.mul_add_mod, Nat.mod_eq_of_lt hl]

theorem getElem_eq_digit (w : Nat) (hw : 0 < w) (l : List Nat) (h : ∀ d ∈ l, d < w) (j : Nat) (hj : j < l.length) :
    l[j] = digitValue w l / w ^ (l.length - (j + 1)) % w := by
  have ht := digitValue_take w l (j + 1) h hw
  rw [← ht]
  have ht2 : ∀ d ∈ l.take (j + 1), d < w := fun d hd => h d (List.mem_of_mem_take hd)
  have hd := digitValue_drop w (l.take (j + 1)) j ht2
  rw [List.length_take, show min (j + 1) l.length - j = 1 by omega, Nat.pow_one] at hd
  rw [← hd]
  have : (l.take (j + 1)).drop j = [l[j]] := by
    rw [List.drop_take, show j + 1 - j = 1 by omega, List.drop_eq_getElem_cons hj]; rfl
  rw [this]; simp [digitValue]

theorem byteDigits_getElem (k q : Nat) (hkq : k * q = 8) (m : Bytes) (j : Nat) (hj : j < (byteDigits k q m).length) :
    (byteDigits k q m)[j] = Spec.digit k m j := by
  rw [getElem_eq_digit (2 ^ k) (Nat.two_pow_pos k) _ (byteDigits_lt k q m) j hj, digitValue_byteDigits k q hkq,
    Spec.digit, byteVal_eq, ← Nat.pow_mul, length_byteDigits]
  rw [Nat.mul_sub, ← Nat.mul_assoc, hkq]

theorem byteDigits_take (k q : Nat) (hkq : k * q = 8) (m : Bytes) (n : Nat) (hn : n ≤ q * m.length) :
    (byteDigits k q m).take n = (List.range n).map (Spec.digit k m) := by
  have hl := length_byteDigits k q m
  apply List.ext_getElem
  · simp [hl]; omega
  · intro i h1 h2
    have h3 : i < (byteDigits k q m).length := by rw [List.length_take] at h1; omega
    rw [List.getElem_take, byteDigits_getElem k q hkq m i h3]
    simp

theorem checksum_eq (p : WotsParams) (l : List Nat) : checksum p l = (l.map fun d => p.w - 1 - d).sum := by
  induction l with
  | nil => rfl
  | cons d l ih => simp [checksum, ih]

/-- What is known about the parameters of a supported `w`. -/
structure SpecParams (w : Nat) (p : WotsParams) (k q : Nat) : Prop where
  good : GoodParams p k q
  pw : p.w = w
  lg : Spec.lgW w = k
  l1 : Spec.len1 w = p.len1
  l2 : Spec.len2 w = p.len2

theorem specParams_of {w : Nat} {p : WotsParams} (hw : w = 2 ∨ w = 4 ∨ w = 16 ∨ w = 256)
    (h : wotsSetParams w = ok p) : ∃ k q, SpecParams w p k q := by
  rcases hw with rfl | rfl | rfl | rfl
  · rw [params2] at h; cases h
    exact ⟨1, 8, good2, rfl, by decide +kernel, by decide +kernel, by decide +kernel⟩
  · rw [params4] at h; cases h
    exact ⟨2, 4, good4, rfl, by decide +kernel, by decide +kernel, by decide +kernel⟩
  · rw [params16] at h; cases h
    exact ⟨4, 2, good16, rfl, by decide +kernel, by decide +kernel, by decide +kernel⟩
  · rw [params256] at h; cases h
    exact ⟨8, 1, good256, rfl, by decide +kernel, by decide +kernel, by decide +kernel⟩

theorem SpecParams.len {w : Nat} {p : WotsParams} {k q : Nat} (h : SpecParams w p k q) : Spec.lenW w = p.len := by
  rw [Spec.lenW, h.l1, h.l2, h.good.len]

theorem wotsDigits_eq {w : Nat} {p : WotsParams} {k q : Nat} (h : SpecParams w p k q) (m : Bytes)
    (hm : m.length = 32) : Spec.wotsDigits w m = digitString p k q m := by
  have hg := h.good
  have e1 : (List.range (Spec.len1 w)).map (Spec.digit k m) = byteDigits k q m := by
    have hl := length_byteDigits k q m
    rw [← byteDigits_take k q hg.kq m _ (by rw [h.l1, hg.len1, hm]; omega)]
    exact List.take_of_length_le (by rw [h.l1, hg.len1, hl, hm]; omega)
  simp only [Spec.wotsDigits, h.lg, e1, digitString, checksum_eq, h.pw, h.l2]
  congr 1
  rw [Nat.shiftLeft_eq, toByte_eq_be]
  have := csum_fits p k q hg ((((byteDigits k q m).map fun d => w - 1 - d).sum) * 2 ^ (8 - p.len2 * k % 8))
  rw [toByte_eq_be] at this
  rw [byteDigits_take k q hg.kq _ _ this]

theorem signDigits_spec {w : Nat} {p : WotsParams} {k q : Nat} (h : SpecParams w p k q) (m : Bytes)
    (hm : m.length = 32) : signDigits p m = ok (Spec.wotsDigits w m) := by
  rw [wotsDigits_eq h m hm, signDigits_eq p k q h.good m hm]

theorem length_wotsDigits {w : Nat} {p : WotsParams} {k q : Nat} (h : SpecParams w p k q) (m : Bytes)
    (hm : m.length = 32) : (Spec.wotsDigits w m).length = p.len := by
  rw [wotsDigits_eq h m hm, length_digitString p k q h.good m hm]

theorem wotsDigits_lt {w : Nat} {p : WotsParams} {k q : Nat} (h : SpecParams w p k q) (m : Bytes)
    (hm : m.length = 32) : ∀ d ∈ Spec.wotsDigits w m, d < w := by
  rw [wotsDigits_eq h m hm, ← h.pw]; exact digitString_lt p k q h.good m

end Qrl
