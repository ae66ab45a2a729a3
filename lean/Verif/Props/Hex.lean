import Verif.Proof.Hex
/-!
# C01–C03: hexadecimal text (`bin2hstr`, `hstr2bin`, src/qrl/misc.cpp)
-/

namespace Qrl.Props

open Outcome Spec

/-- C01. Decoding the encoding of any byte vector gives the vector back. -/
theorem C01_hex_roundtrip (v : Bytes) : hstr2bin (bin2hstr v 0) = ok v := by
  rw [bin2hstr_zero, hstr2bin, length_hexOf]
  simp [hstr2binLoop_hexOf]

/-- C01, what the encoding is: two lower-case digits per byte, high nibble first. -/
theorem C01_hex_encoding (v : Bytes) : bin2hstr v 0 = hexOf v := bin2hstr_zero v

/-- C02. On 7-bit text, decoding succeeds exactly on even-length strings of hex characters,
and throws `invalid_argument` on every other one. -/
theorem C02_hex_accepts (s : Bytes) (h7 : ∀ c ∈ s, c < 128) :
    ((∃ v, hstr2bin s = ok v) ↔ (s.length % 2 = 0 ∧ ∀ c ∈ s, c ∈ hexAlphabet)) ∧
    ((∃ v, hstr2bin s = ok v) ∨ hstr2bin s = .throw .invalidArgument) := by
  unfold hstr2bin
  by_cases he : s.length % 2 = 0
  · by_cases ha : ∀ c ∈ s, c ∈ hexAlphabet
    · obtain ⟨v, hv, _⟩ := hstr2binLoop_hex s he ha
      simp only [he, hv]
      simp only [ne_eq, not_true_eq_false, if_false, true_and]
      exact ⟨⟨fun _ => ha, fun _ => ⟨v, rfl⟩⟩, Or.inl ⟨v, rfl⟩⟩
    · have hb := hstr2binLoop_bad s he h7 (by simpa using ha)
      simp only [he, hb]
      simp only [ne_eq, not_true_eq_false, if_false, true_and]
      refine ⟨⟨?_, fun h => absurd h ha⟩, Or.inr trivial⟩
      rintro ⟨v, hv⟩; cases hv
  · simp [he]

/-- C02. What was accepted is the encoding of the result, up to letter case (for every input,
also outside 7-bit text). -/
theorem C02_hex_canonical (s v : Bytes) (h : hstr2bin s = ok v) : bin2hstr v 0 = s.map lower := by
  have key : ∀ n, ∀ s : Bytes, s.length = n → s.length % 2 = 0 → ∀ v, hstr2binLoop s = ok v →
      ∀ c ∈ s, c ∈ hexAlphabet := by
    intro n
    induction n using Nat.strongRecOn with
    | _ n ih =>
      intro s hn he v hv
      match s with
      | [] => simp
      | [_] => simp at he
      | c0 :: c1 :: s =>
        have hx : ∀ c b, isxdigitChar c = ok b → c ∉ hexAlphabet → b = false := by
          intro c b hb hc
          unfold isxdigitChar at hb
          by_cases h1 : c < 128
          · have := isxdigit_ascii c h1
            simp only [isxdigitChar] at this
            rw [this] at hb
            simp [hc] at hb; exact hb
          · simp only [h1, if_false] at hb
            split at hb
            · cases hb; rfl
            · cases hb
        simp only [hstr2binLoop, bind_eq_ok] at hv
        obtain ⟨b0, e0, hv⟩ := hv
        cases b0 with
        | false => simp at hv
        | true =>
          simp only [Bool.not_true, Bool.false_eq_true, if_false, bind_eq_ok] at hv
          obtain ⟨b1, e1, hv⟩ := hv
          cases b1 with
          | false => simp at hv
          | true =>
            simp only [Bool.not_true, Bool.false_eq_true, if_false, bind_eq_ok] at hv
            obtain ⟨r, e2, hv⟩ := hv
            have := ih s.length (by simp at hn; omega) s rfl (by simp at he; omega) r e2
            intro c hc
            simp only [List.mem_cons] at hc
            rcases hc with rfl | rfl | hc
            · exact Decidable.byContradiction fun hn => by cases hx _ _ e0 hn
            · exact Decidable.byContradiction fun hn => by cases hx _ _ e1 hn
            · exact this c hc
  unfold hstr2bin at h
  by_cases he : s.length % 2 = 0
  · simp only [he, ne_eq, not_true_eq_false, if_false] at h
    obtain ⟨v', hv', hs⟩ := hstr2binLoop_hex s he (key _ s rfl he v h)
    rw [h] at hv'
    cases hv'
    rw [bin2hstr_zero, hs]
  · simp [he] at h

/-- C02. Two accepted spellings of the same bytes differ only in letter case. -/
theorem C02_hex_injective (s t v : Bytes) (h1 : hstr2bin s = ok v) (h2 : hstr2bin t = ok v) :
    s.map lower = t.map lower := by
  rw [← C02_hex_canonical s v h1, ← C02_hex_canonical t v h2]

/-- C02. A character between 0x80 and 0xFE after correct hex pairs makes the call undefined. -/
theorem C02_hex_undefined (p : Bytes) (hp : p.length % 2 = 0) (h : ∀ c ∈ p, c ∈ hexAlphabet)
    (c d : UInt8) (hc : 128 ≤ c ∧ c < 255) (rest : Bytes) (hr : rest.length % 2 = 0) :
    hstr2bin (p ++ c :: d :: rest) = ub := by
  have hx : isxdigitChar c = ub := by
    unfold isxdigitChar
    have h1 : ¬ c < 128 := by
      have := UInt8.le_iff_toNat_le.mp hc.1
      simp only [UInt8.lt_iff_toNat_lt]; simp at this ⊢; omega
    have h2 : c ≠ 255 := by rintro rfl; exact absurd hc.2 (by decide)
    simp [h1, h2]
  have := hstr2binLoop_prefix_ub p hp h (c :: d :: rest) (by simp [hstr2binLoop, hx])
  unfold hstr2bin
  have hl : (p ++ c :: d :: rest).length % 2 = 0 := by simp; omega
  rw [hl]; simpa using this

/-- What the classification of one character does, for all 256 characters. -/
theorem isxdigit_all (c : UInt8) :
    isxdigitChar c = if c ∈ hexAlphabet then ok true else if 128 ≤ c ∧ c < 255 then ub else ok false := by
  revert c; apply u8_forall; decide +kernel

/-- C02, the complete behaviour, for every byte string: odd length is refused; otherwise the first character
that is not a hex digit decides: none, the call succeeds; one in 0x80..0xFE, the call is undefined; any other,
it is refused. -/
theorem C02_hex_outcome (s : Bytes) :
    if s.length % 2 = 1 then hstr2bin s = .throw .invalidArgument
    else match s.find? (fun c => decide (c ∉ hexAlphabet)) with
      | none => ∃ v, hstr2bin s = ok v ∧ v.length = s.length / 2 ∧ hexOf v = s.map lower
      | some c => if 128 ≤ c ∧ c < 255 then hstr2bin s = ub else hstr2bin s = .throw .invalidArgument := by
  have loop : ∀ n, ∀ s : Bytes, s.length = n → s.length % 2 = 0 → ∀ c,
      s.find? (fun c => decide (c ∉ hexAlphabet)) = some c →
      hstr2binLoop s = if 128 ≤ c ∧ c < 255 then ub else .throw .invalidArgument := by
    intro n
    induction n using Nat.strongRecOn with
    | _ n ih =>
      intro s hn he c hc
      match s with
      | [] => simp at hc
      | [_] => simp at he
      | c0 :: c1 :: s =>
        rw [List.find?_cons] at hc
        by_cases h0 : c0 ∈ hexAlphabet
        · simp only [h0, not_true_eq_false, decide_false] at hc
          rw [List.find?_cons] at hc
          by_cases h1 : c1 ∈ hexAlphabet
          · simp only [h1, not_true_eq_false, decide_false] at hc
            have := ih s.length (by simp at hn; omega) s rfl (by simp at he; omega) c hc
            simp only [hstr2binLoop, isxdigit_all, h0, h1, if_true, ok_bind, this]
            by_cases hx : 128 ≤ c ∧ c < 255
            · rw [if_pos hx]; rfl
            · rw [if_neg hx]; rfl
          · simp only [h1, not_false_eq_true, decide_true, Option.some.injEq] at hc
            subst hc
            simp only [hstr2binLoop, isxdigit_all, h0, h1, if_true, ok_bind, if_false]
            by_cases hx : 128 ≤ c1 ∧ c1 < 255
            · rw [if_pos hx, if_pos hx]; rfl
            · rw [if_neg hx, if_neg hx]; rfl
        · simp only [h0, not_false_eq_true, decide_true, Option.some.injEq] at hc
          subst hc
          simp only [hstr2binLoop, isxdigit_all, h0, if_false]
          by_cases hx : 128 ≤ c0 ∧ c0 < 255
          · rw [if_pos hx, if_pos hx]; rfl
          · rw [if_neg hx, if_neg hx]; rfl
  by_cases ho : s.length % 2 = 1
  · rw [if_pos ho, hstr2bin, if_pos (by omega)]
  · have he : s.length % 2 = 0 := by omega
    rw [if_neg ho]
    have hs : hstr2bin s = hstr2binLoop s := by rw [hstr2bin, if_neg (by omega)]
    match hf : s.find? (fun c => decide (c ∉ hexAlphabet)) with
    | none =>
      have ha : ∀ c ∈ s, c ∈ hexAlphabet := by
        intro c hc
        have := List.find?_eq_none.mp hf c hc
        simpa using this
      obtain ⟨v, hv, hh⟩ := hstr2binLoop_hex s he ha
      refine ⟨v, hs.trans hv, ?_, hh⟩
      have := congrArg List.length hh
      rw [length_hexOf, List.length_map] at this
      omega
    | some c =>
      have := loop _ s rfl he c hf
      show if _ then _ else _
      by_cases hx : 128 ≤ c ∧ c < 255
      · rw [if_pos hx] at this ⊢; exact hs.trans this
      · rw [if_neg hx] at this ⊢; exact hs.trans this

/-- C03. With `wrap > 0` the output is the hex text of lines of exactly `wrap` bytes (the last one
possibly shorter, never empty) joined by newlines; without the newlines it is the unwrapped text. -/
theorem C03_hex_wrap (v : Bytes) (wrap : Nat) (hw : 0 < wrap) :
    (∃ lines, CutInto wrap lines ∧ lines.flatten = v ∧
      bin2hstr v wrap = joinLines 10 (lines.map hexOf)) ∧
    (bin2hstr v wrap).filter (· ≠ 10) = bin2hstr v 0 := by
  obtain ⟨lines, h1, h2, h3⟩ := bin2hstr_wrap wrap hw v
  refine ⟨⟨lines, h1, h2, h3⟩, ?_⟩
  rw [h3, filter_joinLines, h2, bin2hstr_zero]

-- Non-vacuity.
example : ∀ c ∈ ([48, 97, 70, 57] : Bytes), c < 128 ∧ c ∈ hexAlphabet := by decide
example : hstr2bin [48, 97, 70, 57] = ok [0x0a, 0xF9] := by decide
example : hstr2bin [48, 103] = .throw .invalidArgument := by decide
example : bin2hstr [1, 2, 3, 4, 5] 2 = [48, 49, 48, 50, 10, 48, 51, 48, 52, 10, 48, 53] := by decide
example : hstr2bin ([48, 49] ++ 200 :: 48 :: []) = ub := by decide
example : hstr2bin [48, 49, 48, 255] = .throw .invalidArgument := by decide
example : ([48, 49, 103, 200] : Bytes).find? (fun c => decide (c ∉ hexAlphabet)) = some 103 := by decide

end Qrl.Props
