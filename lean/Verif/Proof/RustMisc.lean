import Verif.Model.RustMisc
import Verif.Spec.RustText
import Verif.Props.Hex
import Verif.Props.Mnemonic
/-!
# The Rust text helpers against the C++ ones
-/

namespace Qrl.Rs

open Qrl.Spec Qrl.Props

theorem str2bin_eq (s : Str) : str2bin s = utf8 s := rfl
theorem ofCodes_eq (b : Bytes) : ofCodes b = ascii b := rfl

theorem code_toNat : ∀ c : UInt8, (Char.ofNat c.toNat).toNat = c.toNat := by
  apply u8_forall; decide +kernel

theorem code_inj (a b : UInt8) (h : Char.ofNat a.toNat = Char.ofNat b.toNat) : a = b := by
  have := congrArg Char.toNat h
  rw [code_toNat, code_toNat] at this
  exact UInt8.toNat_inj.mp this

theorem ofCodes_inj {a b : Bytes} (h : ofCodes a = ofCodes b) : a = b :=
  (List.map_inj_right fun x y => code_inj x y).mp h

theorem encode_ascii : ∀ c : UInt8, c < 128 → String.utf8EncodeChar (Char.ofNat c.toNat) = [c] := by
  apply u8_forall; decide +kernel

theorem str2bin_ofCodes (t : Bytes) (h : ∀ c ∈ t, c < 128) : str2bin (ofCodes t) = t := by
  induction t with
  | nil => rfl
  | cons c t ih =>
    rw [ofCodes, List.map_cons, str2bin, List.flatMap_cons, encode_ascii c (h c (by simp))]
    have := ih fun c hc => h c (by simp [hc])
    rw [str2bin, ofCodes] at this
    rw [this]; rfl

theorem char_of_small (c : Char) (h : c.toNat < 128) :
    ∃ x : UInt8, x < 128 ∧ c = Char.ofNat x.toNat := by
  refine ⟨UInt8.ofNat c.toNat, ?_, ?_⟩
  · rw [UInt8.lt_iff_toNat_lt, UInt8.toNat_ofNat']; show _ % 256 < 128; omega
  · rw [UInt8.toNat_ofNat', Nat.mod_eq_of_lt (by omega)]; exact (Char.ofNat_toNat c).symm

theorem small_text (s : Str) (h : ∀ c ∈ s, c.toNat < 128) : ∃ t : Bytes, (∀ x ∈ t, x < 128) ∧ s = ofCodes t := by
  induction s with
  | nil => exact ⟨[], by simp, rfl⟩
  | cons c s ih =>
    obtain ⟨x, hx, rfl⟩ := char_of_small c (h c (by simp))
    obtain ⟨t, ht, rfl⟩ := ih fun c hc => h c (by simp [hc])
    refine ⟨x :: t, ?_, rfl⟩
    intro y hy
    rcases List.mem_cons.mp hy with rfl | hy
    · exact hx
    · exact ht y hy


theorem encode_big (c : Char) (h : 128 ≤ c.toNat) : ∃ x ∈ String.utf8EncodeChar c, ¬ x < 128 := by
  have hv : c.val.toNat = c.toNat := rfl
  have big : ∀ k, k < 128 → ¬ UInt8.ofNat (k + 128) < 128 := by
    intro k hk
    rw [UInt8.lt_iff_toNat_lt, UInt8.toNat_ofNat']; show ¬ _ % 256 < 128; omega
  rw [String.utf8EncodeChar, if_neg (by omega)]
  split
  · exact ⟨_, by simp, big (c.val.toNat % 64) (by omega)⟩
  · split
    · exact ⟨_, by simp, big (c.val.toNat % 64) (by omega)⟩
    · exact ⟨_, by simp, big (c.val.toNat % 64) (by omega)⟩

/-- A text with 7-bit UTF-8 bytes is the text of these codes. -/
theorem ascii_text (s : Str) (h : ∀ x ∈ str2bin s, x < 128) : s = ofCodes (str2bin s) := by
  have : ∀ c ∈ s, c.toNat < 128 := by
    intro c hc
    refine Nat.lt_of_not_le fun hn => ?_
    obtain ⟨x, hx, hb⟩ := encode_big c hn
    exact hb (h x (List.mem_flatMap.mpr ⟨c, hc, hx⟩))
  obtain ⟨t, ht, rfl⟩ := small_text s this
  rw [str2bin_ofCodes t ht]

/-! ## Hex -/

theorem hexChar_code : ∀ n, n < 16 → hexChar n = Char.ofNat (hexDigit n).toNat := by
  intro n hn
  have : ∀ k : Fin 16, hexChar k.val = Char.ofNat (hexDigit k.val).toNat := by decide +kernel
  exact this ⟨n, hn⟩

theorem bin2hstrLoop_eq (wrap : Nat) (v : Bytes) : ∀ count,
    bin2hstrLoop wrap count v = ofCodes (Qrl.bin2hstrLoop wrap count v) := by
  induction v with
  | nil => intro count; rfl
  | cons x v ih =>
    intro count
    have hx := x.toNat_lt
    rw [bin2hstrLoop, Qrl.bin2hstrLoop]
    simp only [hexChar_code _ (show x.toNat / 16 < 16 by omega), hexChar_code _ (show x.toNat % 16 < 16 by omega), ih]
    split
    · split
      · rfl
      · rfl
    · rfl

theorem bin2hstr_eq (v : Bytes) (wrap : Nat) : bin2hstr v wrap = ofCodes (Qrl.bin2hstr v wrap) := bin2hstrLoop_eq wrap v 0

theorem hexDigit_small : ∀ n, n < 16 → hexDigit n < 128 := by
  intro n hn
  have : ∀ k : Fin 16, hexDigit k.val < 128 := by decide +kernel
  exact this ⟨n, hn⟩

theorem bin2hstr_small (v : Bytes) (wrap : Nat) : ∀ c ∈ Qrl.bin2hstr v wrap, c < 128 := by
  have key : ∀ (v : Bytes) count, ∀ c ∈ Qrl.bin2hstrLoop wrap count v, c < 128 := by
    intro v
    induction v with
    | nil => intro count c hc; cases hc
    | cons x v ih =>
      intro count c hc
      have hx := x.toNat_lt
      have hb : ∀ c ∈ hexByte x, c < 128 := by
        intro c hc
        simp only [hexByte, List.mem_cons, List.not_mem_nil, or_false] at hc
        rcases hc with rfl | rfl
        · exact hexDigit_small _ (by omega)
        · exact hexDigit_small _ (by omega)
      rw [Qrl.bin2hstrLoop] at hc
      split at hc
      · dsimp only at hc
        split at hc
        · rcases List.mem_cons.mp hc with rfl | hc
          · decide
          · rcases List.mem_append.mp hc with hc | hc
            · exact hb c hc
            · exact ih _ c hc
        · rcases List.mem_append.mp hc with hc | hc
          · exact hb c hc
          · exact ih _ c hc
      · rcases List.mem_append.mp hc with hc | hc
        · exact hb c hc
        · exact ih _ c hc
  exact key v 0

theorem digit_code : ∀ c : UInt8, c < 128 → isxdigitChar c = .ok (isDigit16 (Char.ofNat c.toNat)) := by
  apply u8_forall; decide +kernel

theorem value_code : ∀ c : UInt8, getHexValue (Char.ofNat c.toNat) = Qrl.getHexValue c := by
  apply u8_forall; decide +kernel

theorem digit_small (c : Char) (h : isDigit16 c = true) : c.toNat < 128 := by
  simp only [isDigit16, Bool.or_eq_true, Bool.and_eq_true, decide_eq_true_eq] at h
  omega

/-- On 7-bit text the two loops do the same. -/
theorem hstr2binLoop_ascii (n : Nat) : ∀ t : Bytes, t.length = 2 * n → (∀ c ∈ t, c < 128) →
    (∀ v, hstr2binLoop (ofCodes t) = .ok v ↔ Qrl.hstr2binLoop t = .ok v) := by
  induction n with
  | zero =>
    intro t ht _ v
    obtain rfl : t = [] := List.length_eq_zero_iff.mp (by omega)
    rw [show ofCodes [] = [] from rfl, hstr2binLoop, Qrl.hstr2binLoop]
    simp
  | succ n ih =>
    intro t ht h7 v
    match t, ht with
    | [], ht => simp at ht
    | [_], ht => simp at ht; omega
    | a :: b :: t, ht =>
      have ha := h7 a (by simp)
      have hb := h7 b (by simp)
      have ih := ih t (by simp at ht; omega) (fun c hc => h7 c (by simp [hc]))
      rw [show ofCodes (a :: b :: t) = Char.ofNat a.toNat :: Char.ofNat b.toNat :: ofCodes t from rfl, hstr2binLoop,
        Qrl.hstr2binLoop, digit_code a ha, digit_code b hb, Outcome.ok_bind, Outcome.ok_bind, value_code, value_code]
      cases h1 : isDigit16 (Char.ofNat a.toNat) with
      | false => simp
      | true =>
        cases h2 : isDigit16 (Char.ofNat b.toNat) with
        | false => simp
        | true =>
          simp only [Bool.not_true, Bool.or_self, Bool.false_eq_true, if_false, Res.bind_eq_ok, Outcome.bind_eq_ok]
          constructor
          · rintro ⟨r, h3, h4⟩
            exact ⟨r, (ih r).mp h3, by cases h4; rfl⟩
          · rintro ⟨r, h3, h4⟩
            exact ⟨r, (ih r).mpr h3, by cases h4; rfl⟩

theorem hstr2binLoop_digits (n : Nat) : ∀ (s : Str) (v : Bytes), s.length ≤ n → hstr2binLoop s = .ok v →
    s.length % 2 = 0 ∧ ∀ c ∈ s, c.toNat < 128 := by
  induction n with
  | zero =>
    intro s v h _
    obtain rfl : s = [] := List.length_eq_zero_iff.mp (by omega)
    simp
  | succ n ih =>
    intro s v hl h
    match s, hl, h with
    | [], _, _ => simp
    | [_], _, h => cases h
    | a :: b :: s, hl, h =>
      rw [hstr2binLoop] at h
      by_cases hc : (!isDigit16 a || !isDigit16 b) = true
      · rw [if_pos hc] at h; cases h
      · rw [if_neg hc, Res.bind_eq_ok] at h
        obtain ⟨r, h3, _⟩ := h
        obtain ⟨e, hs⟩ := ih s r (by simp at hl; omega) h3
        simp only [Bool.or_eq_true, Bool.not_eq_true', not_or, Bool.not_eq_false] at hc
        refine ⟨by simp; omega, ?_⟩
        intro c hc'
        rcases List.mem_cons.mp hc' with rfl | hc'
        · exact digit_small _ hc.1
        · rcases List.mem_cons.mp hc' with rfl | hc'
          · exact digit_small _ hc.2
          · exact hs c hc'

theorem hstr2bin_total (s : Str) : (∃ v, hstr2bin s = .ok v) ∨ hstr2bin s = .err .invalidArgument := by
  have key : ∀ n, ∀ s : Str, s.length ≤ n → (∃ v, hstr2binLoop s = .ok v) ∨ hstr2binLoop s = .err .invalidArgument := by
    intro n
    induction n with
    | zero =>
      intro s h
      obtain rfl : s = [] := List.length_eq_zero_iff.mp (by omega)
      exact Or.inl ⟨[], rfl⟩
    | succ n ih =>
      intro s hl
      match s, hl with
      | [], _ => exact Or.inl ⟨[], rfl⟩
      | [_], _ => exact Or.inr rfl
      | a :: b :: s, hl =>
        rw [hstr2binLoop]
        split
        · exact Or.inr rfl
        · rcases ih s (by simp at hl; omega) with ⟨v, h⟩ | h
          · rw [h]; exact Or.inl ⟨_, rfl⟩
          · rw [h]; exact Or.inr rfl
  rw [hstr2bin]
  split
  · exact Or.inr rfl
  · exact key _ s (Nat.le_refl _)

theorem lower_digit_small : ∀ c : UInt8, Spec.lower c ∈ hexDigits → c < 128 := by
  apply u8_forall; decide +kernel

theorem hexOf_digits (v : Bytes) : ∀ c ∈ hexOf v, c ∈ hexDigits := by
  intro c hc
  obtain ⟨b, _, hb⟩ := List.mem_flatMap.mp hc
  have := b.toNat_lt
  have key : ∀ n, n < 16 → hexDigits.getD n 0 ∈ hexDigits := by
    intro n hn
    have : ∀ k : Fin 16, hexDigits.getD k.val 0 ∈ hexDigits := by decide +kernel
    exact this ⟨n, hn⟩
  simp only [List.mem_cons, List.not_mem_nil, or_false] at hb
  rcases hb with rfl | rfl
  · exact key _ (by omega)
  · exact key _ (by omega)

theorem hstr2bin_small (t v : Bytes) (h : Qrl.hstr2bin t = .ok v) : ∀ c ∈ t, c < 128 := by
  intro c hc
  have e := C02_hex_canonical t v h
  rw [C01_hex_encoding] at e
  apply lower_digit_small
  apply hexOf_digits v
  rw [e]
  exact List.mem_map_of_mem hc

theorem hstr2bin_eq (s : Str) (v : Bytes) : hstr2bin s = .ok v ↔ Qrl.hstr2bin (str2bin s) = .ok v := by
  have main : ∀ t : Bytes, (∀ c ∈ t, c < 128) → (hstr2bin (ofCodes t) = .ok v ↔ Qrl.hstr2bin t = .ok v) := by
    intro t ht
    rw [hstr2bin, str2bin_ofCodes t ht, Qrl.hstr2bin]
    by_cases he : t.length % 2 ≠ 0
    · rw [if_pos he, if_pos he]; simp
    · rw [if_neg he, if_neg he]
      exact hstr2binLoop_ascii (t.length / 2) t (by omega) ht v
  constructor
  · intro h
    have h' := h
    rw [hstr2bin] at h'
    split at h'
    · cases h'
    · obtain ⟨_, h7⟩ := hstr2binLoop_digits _ s v (Nat.le_refl _) h'
      obtain ⟨t, ht, rfl⟩ := small_text s h7
      rw [str2bin_ofCodes t ht]
      exact (main t ht).mp h
  · intro h
    have h7 := hstr2bin_small _ v h
    have e := ascii_text s h7
    rw [e]
    exact (main _ h7).mpr h

/-! ## Mnemonics -/

theorem drain_eq (n : Nat) : ∀ b c, b ≤ n → drainNibbles b c = Qrl.drainNibbles b c := by
  induction n with
  | zero =>
    intro b c h
    rw [drainNibbles, Qrl.drainNibbles, dif_neg (by omega), dif_neg (by omega)]
  | succ n ih =>
    intro b c h
    rw [drainNibbles, Qrl.drainNibbles]
    by_cases hb : b > 2
    · rw [dif_pos hb, dif_pos hb]
      dsimp only
      rw [ih (b - 2) _ (by omega)]
    · rw [dif_neg hb, dif_neg hb]

theorem lookup_map (m : List (Bytes × Nat)) (w : Bytes) :
    (m.map fun x => (ofCodes x.1, x.2)).lookup (ofCodes w) = m.lookup w := by
  induction m with
  | nil => rfl
  | cons x m ih =>
    obtain ⟨a, i⟩ := x
    rw [List.map_cons, List.lookup_cons, List.lookup_cons, ih]
    by_cases h : w = a
    · subst h; simp
    · have h' : ofCodes w ≠ ofCodes a := fun e => h (ofCodes_inj e)
      simp only [beq_eq_false_iff_ne.mpr h, beq_eq_false_iff_ne.mpr h']

theorem buildLookup_map (ws : List Bytes) : ∀ c m,
    buildLookup (ws.map ofCodes) c (m.map fun x => (ofCodes x.1, x.2)) =
      (Qrl.buildLookup ws c m).map fun x => (ofCodes x.1, x.2) := by
  induction ws with
  | nil => intro c m; rfl
  | cons w ws ih =>
    intro c m
    rw [List.map_cons, buildLookup, Qrl.buildLookup, ← ih]
    rfl

theorem wordLookup_codes (w : Bytes) : wordLookup (ofCodes w) = Qrl.wordLookup w := by
  rw [wordLookup, Qrl.wordLookup, wordlist, ← lookup_map]
  have := buildLookup_map Qrl.wordlist 0 []
  rw [List.map_nil] at this
  rw [this]

theorem lookup_mem {m : List (Str × Nat)} {w : Str} {i : Nat} (h : m.lookup w = some i) : (w, i) ∈ m := by
  induction m with
  | nil => cases h
  | cons p m ih =>
    obtain ⟨x, j⟩ := p
    rw [List.lookup_cons] at h
    by_cases hx : w = x
    · subst hx
      simp only [beq_self_eq_true] at h
      cases h; simp
    · rw [beq_eq_false_iff_ne.mpr hx] at h
      exact List.mem_cons_of_mem _ (ih h)

theorem wordLookup_mem {w : Str} {i : Nat} (h : wordLookup w = some i) : w ∈ wordlist := by
  rw [wordLookup, wordlist] at h
  have := buildLookup_map Qrl.wordlist 0 []
  rw [List.map_nil] at this
  rw [this] at h
  obtain ⟨x, hx, e⟩ := List.mem_map.mp (lookup_mem h)
  rw [Qrl.buildLookup_eq] at hx
  simp only [List.append_nil, List.mem_reverse] at hx
  have := List.mem_zipIdx_iff_getElem?.mp hx
  rw [wordlist, List.mem_map]
  cases e
  exact ⟨x.1, List.mem_of_getElem? (by simpa using this), rfl⟩

theorem mnemonicLoop_codes (ws : List Bytes) : ∀ b c v,
    (mnemonicLoop (ws.map ofCodes) b c = .ok v ↔ Qrl.mnemonicLoop ws b c = .ok v) := by
  induction ws with
  | nil =>
    intro b c v
    rw [List.map_nil, mnemonicLoop, Qrl.mnemonicLoop]
    split <;> simp
  | cons w ws ih =>
    intro b c v
    rw [List.map_cons, mnemonicLoop, Qrl.mnemonicLoop, wordLookup_codes]
    cases Qrl.wordLookup w with
    | none => simp
    | some i =>
      dsimp only
      rw [drain_eq _ _ _ (Nat.le_refl _), Res.bind_eq_ok, Outcome.bind_eq_ok]
      constructor
      · rintro ⟨r, h1, h2⟩
        exact ⟨r, (ih _ _ r).mp h1, by cases h2; rfl⟩
      · rintro ⟨r, h1, h2⟩
        exact ⟨r, (ih _ _ r).mpr h1, by cases h2; rfl⟩

theorem mnemonicLoop_words (ws : List Str) : ∀ b c v, mnemonicLoop ws b c = .ok v → ∀ w ∈ ws, w ∈ wordlist := by
  induction ws with
  | nil => intro b c v _ w hw; cases hw
  | cons x ws ih =>
    intro b c v h w hw
    rw [mnemonicLoop] at h
    cases e : wordLookup x with
    | none => rw [e] at h; cases h
    | some i =>
      rw [e] at h
      dsimp only at h
      rw [Res.bind_eq_ok] at h
      obtain ⟨r, h1, _⟩ := h
      rcases List.mem_cons.mp hw with rfl | hw
      · exact wordLookup_mem e
      · exact ih _ _ r h1 w hw

theorem mnemonicLoop_total (ws : List Str) : ∀ b c,
    (∃ v, mnemonicLoop ws b c = .ok v) ∨ mnemonicLoop ws b c = .err .invalidArgument := by
  induction ws with
  | nil =>
    intro b c
    rw [mnemonicLoop]
    split <;> exact Or.inl ⟨_, rfl⟩
  | cons x ws ih =>
    intro b c
    rw [mnemonicLoop]
    cases wordLookup x with
    | none => exact Or.inr rfl
    | some i =>
      dsimp only
      rcases ih (drainNibbles (b + 3) ((c <<< 12) + i)).2.1 (drainNibbles (b + 3) ((c <<< 12) + i)).2.2 with ⟨v, h⟩ | h
      · rw [h]; exact Or.inl ⟨_, rfl⟩
      · rw [h]; exact Or.inr rfl

theorem words_codes (ws : List Str) (h : ∀ w ∈ ws, w ∈ wordlist) :
    ∃ us : List Bytes, (∀ u ∈ us, u ∈ Qrl.wordlist) ∧ ws = us.map ofCodes := by
  induction ws with
  | nil => exact ⟨[], by simp, rfl⟩
  | cons w ws ih =>
    obtain ⟨u, hu, rfl⟩ := List.mem_map.mp (h w (by simp))
    obtain ⟨us, hus, rfl⟩ := ih fun w hw => h w (by simp [hw])
    refine ⟨u :: us, ?_, rfl⟩
    intro x hx
    rcases List.mem_cons.mp hx with rfl | hx
    · exact hu
    · exact hus x hx

theorem isWhitespace_eq (c : Char) : isWhitespace c = decide (c.toNat ∈ unicodeWhite) := by
  rw [Bool.eq_iff_iff, decide_eq_true_eq]
  simp only [isWhitespace, unicodeWhite, Bool.or_eq_true, Bool.and_eq_true, decide_eq_true_eq, beq_iff_eq, List.mem_cons,
    List.not_mem_nil, or_false]
  omega

theorem splitWhitespace_eq (s : Str) : ∀ cur,
    splitWhitespace cur s = (s.splitOnPPrepend (fun c => decide (c.toNat ∈ unicodeWhite)) cur.reverse).filter (· ≠ []) := by
  induction s with
  | nil => intro cur; cases cur <;> simp [splitWhitespace]
  | cons c s ih =>
    intro cur
    unfold splitWhitespace
    rw [isWhitespace_eq]
    by_cases h : decide (c.toNat ∈ unicodeWhite) = true
    · rw [List.splitOnPPrepend_cons_pos (p := fun c : Char => decide (c.toNat ∈ unicodeWhite)) h]
      have := ih []
      rw [if_pos h]
      cases cur with
      | nil => simp only [List.isEmpty_nil, this]; simp
      | cons a l => simp only [List.isEmpty_cons, this]; simp
    · have h' : decide (c.toNat ∈ unicodeWhite) = false := by simpa using h
      rw [List.splitOnPPrepend_cons_neg (p := fun c : Char => decide (c.toNat ∈ unicodeWhite)) h', if_neg h, ih]
      simp

theorem splitWhitespace_words (s : Str) : splitWhitespace [] s = uniWords s := by
  rw [splitWhitespace_eq]; simp [uniWords]

theorem white_code : ∀ c : UInt8, c < 128 → isWhitespace (Char.ofNat c.toNat) = isSpaceChar c := by
  apply u8_forall; decide +kernel

theorem split_codes (t : Bytes) : ∀ cur, (∀ c ∈ t, c < 128) →
    splitWhitespace (ofCodes cur) (ofCodes t) = (streamWords cur t).map ofCodes := by
  induction t with
  | nil =>
    intro cur _
    rw [show ofCodes [] = [] from rfl, splitWhitespace, streamWords]
    cases cur <;> rfl
  | cons c t ih =>
    intro cur h7
    have ih := fun cur => ih cur fun c hc => h7 c (by simp [hc])
    have i0 := ih []
    rw [show ofCodes [] = [] from rfl] at i0
    rw [show ofCodes (c :: t) = Char.ofNat c.toNat :: ofCodes t from rfl, splitWhitespace, streamWords,
      white_code c (h7 c (by simp))]
    split
    · cases cur with
      | nil => exact i0
      | cons a l =>
        show ofCodes (a :: l) :: splitWhitespace [] (ofCodes t) = _
        rw [i0]; rfl
    · rw [show ofCodes cur ++ [Char.ofNat c.toNat] = ofCodes (cur ++ [c]) by simp [ofCodes]]
      exact ih _

theorem mnemonicIdx_eq (v : Bytes) (n i : Nat) (h : Qrl.mnemonicIdx v n = .ok i) : mnemonicIdx v n = .ok i := by
  rw [mnemonicIdx, rd]
  rw [Qrl.mnemonicIdx, Qrl.rd] at h
  dsimp only at h ⊢
  cases e1 : v[n >>> 1]? with
  | none => rw [e1] at h; cases h
  | some b1 =>
    rw [e1] at h
    rw [Outcome.ofOption_some, Outcome.ok_bind] at h
    rw [Res.ok_bind]
    split at h
    · rename_i hc
      rw [Qrl.rd] at h
      rw [if_pos hc, rd]
      cases e2 : v[n >>> 1 + 1]? with
      | none => rw [e2] at h; cases h
      | some b2 =>
        rw [e2, Outcome.ofOption_some, Outcome.ok_bind] at h
        rw [Res.ok_bind]
        split at h
        · rename_i hn; rw [if_pos hn]; cases h; rfl
        · rename_i hn; rw [if_neg hn]; cases h; rfl
    · rename_i hc
      rw [if_neg hc, Res.ok_bind]
      rw [Outcome.ok_bind] at h
      split at h
      · rename_i hn; rw [if_pos hn]; cases h; rfl
      · rename_i hn; rw [if_neg hn]; cases h; rfl

theorem bin2mnemonicLoop_eq (v : Bytes) (k : Nat) : ∀ n r, v.length * 2 - n ≤ k →
    Qrl.bin2mnemonicLoop v n (if n ≠ 0 then [0x20] else []) = .ok r → bin2mnemonicLoop v n = .ok (ofCodes r) := by
  induction k with
  | zero =>
    intro n r hk h
    rw [Qrl.bin2mnemonicLoop, dif_neg (by omega)] at h
    cases h
    rw [bin2mnemonicLoop, dif_neg (by omega)]; rfl
  | succ k ih =>
    intro n r hk h
    rw [Qrl.bin2mnemonicLoop] at h
    rw [bin2mnemonicLoop]
    by_cases hn : n < v.length * 2
    · rw [dif_pos hn] at h ⊢
      simp only [Outcome.bind_eq_ok] at h
      obtain ⟨i, h1, w, h2, rest, h3, h4⟩ := h
      cases h4
      have ih := ih (n + 3) rest (by omega) (by rw [if_pos (by omega)]; exact h3)
      have h2' : rd wordlist i = .ok (ofCodes w) := by
        rw [rd, wordlist, List.getElem?_map]
        rw [Qrl.rd] at h2
        cases e : Qrl.wordlist[i]? with
        | none => rw [e] at h2; cases h2
        | some x => rw [e] at h2; cases h2; rfl
      rw [mnemonicIdx_eq v n i h1, Res.ok_bind, h2', Res.ok_bind, ih, Res.ok_bind]
      congr 1
      split <;> simp [ofCodes]
    · rw [dif_neg hn] at h ⊢
      cases h; rfl

theorem ofCodes_phrase (ws : List Bytes) : ofCodes (phrase ws) = spaced (ws.map ofCodes) := by
  unfold phrase
  induction ws with
  | nil => rfl
  | cons w ws ih =>
    cases ws with
    | nil => rfl
    | cons x ws =>
      rw [joinLines, List.map_cons, List.map_cons, spaced]
      · rw [List.map_cons] at ih
        rw [← ih]; simp [ofCodes]
      · simp
      · simp

end Qrl.Rs
