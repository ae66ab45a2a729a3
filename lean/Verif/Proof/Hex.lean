import Verif.Model.Misc
import Verif.Spec.Text

namespace Qrl

open Outcome Spec

theorem u8_forall {P : UInt8 → Prop} [DecidablePred P]
    (h : ∀ n : Fin 256, P (UInt8.ofNat n.val)) (c : UInt8) : P c := by
  have := h ⟨c.toNat, c.toNat_lt⟩
  simpa using this

theorem hexByte_eq (b : UInt8) :
    hexByte b = [hexDigits.getD (b.toNat / 16) 0, hexDigits.getD (b.toNat % 16) 0] := by
  revert b; apply u8_forall; decide +kernel

theorem bin2hstrLoop_zero (c : Nat) (v : Bytes) : bin2hstrLoop 0 c v = hexOf v := by
  induction v generalizing c with
  | nil => rfl
  | cons b v ih => simp [bin2hstrLoop, ih, hexByte_eq, hexOf]

theorem bin2hstr_zero (v : Bytes) : bin2hstr v 0 = hexOf v := bin2hstrLoop_zero 0 v

theorem hexByte_decode (b : UInt8) :
    ∃ c0 c1, hexByte b = [c0, c1] ∧ isxdigitChar c0 = ok true ∧ isxdigitChar c1 = ok true ∧
      (getHexValue c0 <<< 4) + getHexValue c1 = b := by
  refine ⟨hexDigit (b.toNat / 16), hexDigit (b.toNat % 16), rfl, ?_⟩
  revert b; apply u8_forall; decide +kernel

theorem hstr2binLoop_hexOf (v : Bytes) : hstr2binLoop (hexOf v) = ok v := by
  induction v with
  | nil => rfl
  | cons b v ih =>
    obtain ⟨c0, c1, h, h0, h1, h2⟩ := hexByte_decode b
    have : hexOf (b :: v) = c0 :: c1 :: hexOf v := by
      have := hexByte_eq b
      rw [h] at this
      simp only [hexOf, List.flatMap_cons, ← this]
      rfl
    rw [this]
    simp [hstr2binLoop, h0, h1, h2, ih]

theorem length_hexOf (v : Bytes) : (hexOf v).length = 2 * v.length := by
  induction v with
  | nil => rfl
  | cons b v ih => simp [hexOf] at ih ⊢; omega

theorem isxdigit_ascii (c : UInt8) (h : c < 128) : isxdigitChar c = ok (decide (c ∈ hexAlphabet)) := by
  revert h; revert c; apply u8_forall; decide +kernel

theorem alphabet_ascii (c : UInt8) : c ∈ hexAlphabet → c < 128 := by
  revert c; apply u8_forall; decide +kernel

/-- Hex digits used for the pairwise table below. -/
theorem pair_encode : ∀ c0 ∈ hexAlphabet, ∀ c1 ∈ hexAlphabet,
    hexByte ((getHexValue c0 <<< 4) + getHexValue c1) = [lower c0, lower c1] := by
  decide +kernel

/-- What `hstr2binLoop` does on an even-length list. -/
theorem hstr2binLoop_hex (s : Bytes) (he : s.length % 2 = 0) (h : ∀ c ∈ s, c ∈ hexAlphabet) :
    ∃ v, hstr2binLoop s = ok v ∧ hexOf v = s.map lower := by
  match s with
  | [] => exact ⟨[], rfl, rfl⟩
  | [_] => simp at he
  | c0 :: c1 :: s =>
    have h0 : c0 ∈ hexAlphabet := h c0 (by simp)
    have h1 : c1 ∈ hexAlphabet := h c1 (by simp)
    obtain ⟨v, hv, hs⟩ := hstr2binLoop_hex s (by simp at he; omega) (fun c hc => h c (by simp [hc]))
    refine ⟨((getHexValue c0 <<< 4) + getHexValue c1) :: v, ?_, ?_⟩
    · simp [hstr2binLoop, isxdigit_ascii _ (alphabet_ascii _ h0), isxdigit_ascii _ (alphabet_ascii _ h1),
        h0, h1, hv]
    · have := pair_encode c0 h0 c1 h1
      rw [hexByte_eq] at this
      simp only [hexOf, List.flatMap_cons, List.map_cons] at hs ⊢
      rw [this, hs]; rfl

theorem hstr2binLoop_bad (s : Bytes) (he : s.length % 2 = 0) (ha : ∀ c ∈ s, c < 128)
    (h : ∃ c ∈ s, c ∉ hexAlphabet) : hstr2binLoop s = .throw .invalidArgument := by
  match s with
  | [] => simp at h
  | [_] => simp at he
  | c0 :: c1 :: s =>
    have a0 := isxdigit_ascii c0 (ha c0 (by simp))
    have a1 := isxdigit_ascii c1 (ha c1 (by simp))
    by_cases h0 : c0 ∈ hexAlphabet
    · by_cases h1 : c1 ∈ hexAlphabet
      · have ih := hstr2binLoop_bad s (by simp at he; omega) (fun c hc => ha c (by simp [hc]))
          (by
            obtain ⟨c, hc, hn⟩ := h
            simp only [List.mem_cons] at hc
            rcases hc with rfl | rfl | hc
            · exact absurd h0 hn
            · exact absurd h1 hn
            · exact ⟨c, hc, hn⟩)
        simp [hstr2binLoop, a0, a1, h0, h1, ih]
      · simp [hstr2binLoop, a0, a1, h0, h1]
    · simp [hstr2binLoop, a0, h0]

/-- The loop behaves the same after a prefix of hex pairs. -/
theorem hstr2binLoop_prefix_ub (p : Bytes) (hp : p.length % 2 = 0) (h : ∀ c ∈ p, c ∈ hexAlphabet)
    (s : Bytes) (hs : hstr2binLoop s = ub) : hstr2binLoop (p ++ s) = ub := by
  match p with
  | [] => simpa using hs
  | [_] => simp at hp
  | c0 :: c1 :: p =>
    have h0 : c0 ∈ hexAlphabet := h c0 (by simp)
    have h1 : c1 ∈ hexAlphabet := h c1 (by simp)
    have ih := hstr2binLoop_prefix_ub p (by simp at hp; omega) (fun c hc => h c (by simp [hc])) s hs
    simp [hstr2binLoop, isxdigit_ascii _ (alphabet_ascii _ h0), isxdigit_ascii _ (alphabet_ascii _ h1),
        h0, h1, ih]

theorem cutInto_cons (w : Nat) (l : Bytes) (ls : List Bytes) (h1 : 1 ≤ l.length) (h2 : l.length ≤ w)
    (h3 : ls ≠ [] → l.length = w) (h4 : CutInto w ls) : CutInto w (l :: ls) := by
  cases ls with
  | nil => exact ⟨h1, h2⟩
  | cons x xs => exact ⟨h3 (by simp), h4⟩

theorem joinLines_cons (l : Bytes) (ls : List Bytes) :
    joinLines 10 ((l :: ls).map hexOf) = hexOf l ++ (ls.map (fun x => 10 :: hexOf x)).flatten := by
  induction ls generalizing l with
  | nil => simp [joinLines]
  | cons x xs ih =>
    have := ih x
    simp only [List.map_cons, joinLines] at this ⊢
    simp [this]

/-- The wrapped output: the remaining bytes of the current line, then full lines. -/
theorem bin2hstrLoop_wrap (w : Nat) (hw : 0 < w) (v : Bytes) : ∀ count, 0 < count → count ≤ w →
    ∃ l lines, l ++ lines.flatten = v ∧ l.length ≤ w - count ∧
      (lines ≠ [] → l.length = w - count) ∧ CutInto w lines ∧
      bin2hstrLoop w count v = hexOf l ++ (lines.map (fun x => 10 :: hexOf x)).flatten := by
  induction v with
  | nil => intro c h0 h1; exact ⟨[], [], by simp [CutInto, bin2hstrLoop, hexOf]⟩
  | cons b v ih =>
    intro c h0 h1
    by_cases hc : c + 1 > w
    · obtain ⟨l, lines, e1, e2, e3, e4, e5⟩ := ih 1 (by omega) (by omega)
      refine ⟨[], (b :: l) :: lines, by simp [e1], by simp, by simp; omega, ?_, ?_⟩
      · refine cutInto_cons _ _ _ (by simp) (by simp; omega) ?_ e4
        intro h; have := e3 h; simp; omega
      · simp [bin2hstrLoop, hw, hc, e5, hexOf, hexByte_eq]
    · obtain ⟨l, lines, e1, e2, e3, e4, e5⟩ := ih (c + 1) (by omega) (by omega)
      refine ⟨b :: l, lines, by simp [e1], by simp; omega, ?_, e4, ?_⟩
      · intro h; have := e3 h; simp; omega
      · simp [bin2hstrLoop, hw, hc, e5, hexOf, hexByte_eq]

theorem bin2hstr_wrap (w : Nat) (hw : 0 < w) (v : Bytes) :
    ∃ lines, CutInto w lines ∧ lines.flatten = v ∧ bin2hstr v w = joinLines 10 (lines.map hexOf) := by
  cases v with
  | nil => exact ⟨[], trivial, rfl, rfl⟩
  | cons b v =>
    obtain ⟨l, lines, e1, e2, e3, e4, e5⟩ := bin2hstrLoop_wrap w hw v 1 (by omega) (by omega)
    refine ⟨(b :: l) :: lines, ?_, by simp [e1], ?_⟩
    · refine cutInto_cons _ _ _ (by simp) (by simp; omega) ?_ e4
      intro h; have := e3 h; simp; omega
    · rw [joinLines_cons]
      have : ¬ (1 > w) := by omega
      simp [bin2hstr, bin2hstrLoop, hw, this, e5, hexOf, hexByte_eq]

theorem hexDigits_ne_newline (n : Nat) : hexDigits.getD n 0 ≠ 10 := by
  by_cases h : n < 16
  · revert n; decide
  · simp [hexDigits, List.getD_eq_getElem?_getD]
    have : hexDigits[n]? = none := List.getElem?_eq_none (by simpa [hexDigits] using h)
    simp only [hexDigits] at this; rw [this]; decide

theorem filter_hexOf (l : Bytes) : (hexOf l).filter (· ≠ 10) = hexOf l := by
  rw [List.filter_eq_self]
  intro a ha
  simp only [hexOf, List.mem_flatMap, List.mem_cons, List.not_mem_nil, or_false] at ha
  obtain ⟨b, _, rfl | rfl⟩ := ha
  · simpa using hexDigits_ne_newline _
  · simpa using hexDigits_ne_newline _

theorem hexOf_append (a b : Bytes) : hexOf (a ++ b) = hexOf a ++ hexOf b := by simp [hexOf]

theorem filter_joinLines (lines : List Bytes) :
    (joinLines 10 (lines.map hexOf)).filter (· ≠ 10) = hexOf lines.flatten := by
  cases lines with
  | nil => rfl
  | cons l ls =>
    rw [joinLines_cons, List.filter_append, filter_hexOf]
    induction ls with
    | nil => simp
    | cons x xs ih =>
      have h := filter_hexOf x
      simp only [List.flatten_cons, hexOf_append] at ih ⊢
      have ih' := List.append_cancel_left ih
      rw [List.map_cons, List.flatten_cons, List.filter_append, ih']
      simp at h
      simpa using h

end Qrl
