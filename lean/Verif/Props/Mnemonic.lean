import Verif.Proof.Mnemonic
/-!
# C04, C05, C06: mnemonic phrases

Vocabulary: `Verif/Spec/Text.lean` (`groups12`, `wordsOf`, `joinLines`). `wordlist` is the list of
4096 words of src/qrl/wordlist.cpp; space is character 32.
-/

namespace Qrl.Props

open Outcome Spec

/-- The canonical way to write a phrase: words separated by single spaces. -/
abbrev phrase (ws : List Bytes) : Bytes := joinLines 32 ws

/-- The list has 4096 different words, each a non-empty string of lower-case letters. -/
theorem C04_wordlist : wordlist.length = 4096 ∧ wordlist.Nodup ∧
    ∀ w ∈ wordlist, w ≠ [] ∧ ∀ c ∈ w, 97 ≤ c.toNat ∧ c.toNat ≤ 122 :=
  ⟨wordlist_length, wordlist_nodup, wordlist_word⟩

/-- C04: what `bin2mnemonic` writes: the words numbered by the 12-bit groups, joined by spaces. -/
theorem C04_mnemonic_encoding (v : Bytes) (h : v.length % 3 = 0) :
    bin2mnemonic v = ok (phrase ((groups12 v).map fun i => wordlist.getD i [])) :=
  bin2mnemonic_eq (v.length / 3) v (by omega)

/-- C04: `bin2mnemonic` throws exactly when the size is not a multiple of 3, and it never runs into
undefined behaviour (in particular it never reads outside the word list or the vector). -/
theorem C04_mnemonic_throws (v : Bytes) :
    (bin2mnemonic v = .throw .invalidArgument ↔ v.length % 3 ≠ 0) ∧ bin2mnemonic v ≠ .ub := by
  by_cases h : v.length % 3 = 0
  · rw [C04_mnemonic_encoding v h]; simp [h]
  · have : bin2mnemonic v = .throw .invalidArgument := by simp [bin2mnemonic, h]
    rw [this]; simp [h]

/-- C04: decoding the phrase of a non-empty vector gives the vector back. -/
theorem C04_mnemonic_roundtrip (v : Bytes) (h : v.length % 3 = 0) (hne : v ≠ []) :
    (bin2mnemonic v >>= mnemonic2bin) = ok v := by
  have hl : v.length = 3 * (v.length / 3) := by omega
  have hpos : 0 < v.length := List.length_pos_iff.mpr hne
  rw [bin2mnemonic_eq _ v hl, ok_bind,
    mnemonic2bin_join (v.length / 3) _ (by omega) (length_groups12 _ v hl) (groups12_lt v),
    bytes_groups _ v hl]

/-- C04: the empty vector is the exception: its phrase is empty, and the empty phrase is refused. -/
theorem C04_mnemonic_empty : bin2mnemonic [] = ok [] ∧ mnemonic2bin [] = .throw .invalidArgument := by
  constructor
  · simpa [groups12, joinLines] using C04_mnemonic_encoding [] rfl
  · simp [mnemonic2bin]

/-- Exactly which phrases `mnemonic2bin` accepts: the number of space characters is odd and every
word is in the list. Anything else throws `invalid_argument`; there is no undefined behaviour. -/
theorem C05_mnemonic_accepts (s : Bytes) :
    ((∃ v, mnemonic2bin s = ok v) ↔ s.count 32 % 2 = 1 ∧ ∀ w ∈ wordsOf s, w ∈ wordlist) ∧
    ((∃ v, mnemonic2bin s = ok v) ∨ mnemonic2bin s = .throw .invalidArgument) := by
  unfold mnemonic2bin
  have hl := mnemonicLoop_ok_iff (streamWords [] s) 0 0
  rw [streamWords_wordsOf] at hl ⊢
  by_cases h : s.count 32 % 2 = 1
  · have : ¬ ((s.count 32 + 1) % 2 ≠ 0) := by omega
    simp only [this, if_false, h, true_and]
    exact hl
  · have : (s.count 32 + 1) % 2 ≠ 0 := by omega
    simp [this, h]

/-- C05: an accepted phrase consists of list words only. -/
theorem C05_mnemonic_words (s v : Bytes) (h : mnemonic2bin s = ok v) :
    ∀ w ∈ wordsOf s, w ∈ wordlist :=
  ((C05_mnemonic_accepts s).1.mp ⟨v, h⟩).2

theorem words_indices (ws : List Bytes) (h : ∀ w ∈ ws, w ∈ wordlist) :
    ∃ is : List Nat, (∀ i ∈ is, i < 4096) ∧ is.map wordAt = ws := by
  induction ws with
  | nil => exact ⟨[], by simp⟩
  | cons w ws ih =>
    obtain ⟨is, h1, h2⟩ := ih fun w hw => h w (by simp [hw])
    obtain ⟨i, hi⟩ := List.getElem?_of_mem (h w (by simp))
    have hlt : i < 4096 := by
      rw [← wordlist_length]; exact (List.getElem?_eq_some_iff.mp hi).1
    refine ⟨i :: is, ?_, ?_⟩
    · intro j hj
      rcases List.mem_cons.mp hj with rfl | hj
      · exact hlt
      · exact h1 j hj
    · have := (getElem?_wordAt hlt).symm.trans hi
      simp only [List.map_cons, h2]
      injection this with this
      rw [this]

/-- C05: an even number of list words joined by single spaces is accepted, and encoding the result
gives the same phrase. -/
theorem C05_mnemonic_canonical (ws : List Bytes) (hw : ∀ w ∈ ws, w ∈ wordlist)
    (hne : ws ≠ []) (heven : ws.length % 2 = 0) :
    ∃ v, mnemonic2bin (phrase ws) = ok v ∧ bin2mnemonic v = ok (phrase ws) := by
  obtain ⟨is, hi, rfl⟩ := words_indices ws hw
  rw [List.length_map] at heven
  have hpos : 0 < is.length := by
    rcases is with _ | ⟨i, is⟩
    · simp at hne
    · simp
  have hl : is.length = 2 * (is.length / 2) := by omega
  refine ⟨bytesOfGroups is, mnemonic2bin_join (is.length / 2) is (by omega) hl hi, ?_⟩
  rw [bin2mnemonic_eq (is.length / 2) _ (length_bytesOfGroups _ is hl), groups_bytes _ is hl hi]

/-- C05: different canonical phrases decode to different bytes. -/
theorem C05_mnemonic_injective (ws ws' : List Bytes) (hw : ∀ w ∈ ws, w ∈ wordlist)
    (hw' : ∀ w ∈ ws', w ∈ wordlist) (hne : ws ≠ []) (hne' : ws' ≠ [])
    (he : ws.length % 2 = 0) (he' : ws'.length % 2 = 0) (h : mnemonic2bin (phrase ws) = mnemonic2bin (phrase ws')) :
    ws = ws' := by
  obtain ⟨v, h1, h2⟩ := C05_mnemonic_canonical ws hw hne he
  obtain ⟨v', h1', h2'⟩ := C05_mnemonic_canonical ws' hw' hne' he'
  rw [h1, h1'] at h
  cases h
  rw [h2] at h2'
  have e : phrase ws = phrase ws' := by injection h2'
  rw [← wordsOf_join ws hw, ← wordsOf_join ws' hw']
  unfold phrase at e
  rw [e]

/-- The two-word phrase of three bytes. -/
example : ∃ v, mnemonic2bin (phrase [wordAt 5, wordAt 4095]) = ok v := by
  obtain ⟨v, h, _⟩ := C05_mnemonic_canonical [wordAt 5, wordAt 4095]
    (by intro w hw; simp only [List.mem_cons, List.not_mem_nil, or_false] at hw
        rcases hw with rfl | rfl <;> exact wordAt_mem (by omega)) (by simp) (by simp)
  exact ⟨v, h⟩

example : (bin2mnemonic [1, 2, 3, 250, 251, 252] >>= mnemonic2bin) = ok [1, 2, 3, 250, 251, 252] :=
  C04_mnemonic_roundtrip _ (by decide) (by decide)

/-- Separators in a text of space-free words joined by single spaces. -/
theorem count_phrase (ws : List Bytes) (h : ∀ w ∈ ws, (32 : UInt8) ∉ w) :
    (phrase ws).count 32 = ws.length - 1 := by
  unfold phrase
  induction ws with
  | nil => rfl
  | cons w ws ih =>
    have hw : w.count 32 = 0 := List.count_eq_zero.mpr (h w (by simp))
    cases ws with
    | nil => simp [joinLines, hw]
    | cons x xs =>
      have ih := ih (fun w hw => h w (by simp [hw]))
      simp only [joinLines, List.count_append, List.count_cons_self] at ih ⊢
      rw [ih, hw]; simp

/-- C06 (what holds): an odd number of words (any words, known or not) joined by single spaces is
refused. -/
theorem C06_odd_rejected (ws : List Bytes) (h : ∀ w ∈ ws, (32 : UInt8) ∉ w)
    (hodd : ws.length % 2 = 1) : mnemonic2bin (phrase ws) = .throw .invalidArgument := by
  rcases (C05_mnemonic_accepts (phrase ws)).2 with hv | ht
  · have := ((C05_mnemonic_accepts (phrase ws)).1.mp hv).1
    rw [count_phrase ws h] at this
    omega
  · exact ht

/-- A space separates: the words of the two sides, one after the other. -/
theorem wordsOf_space (a b : Bytes) : wordsOf (a ++ 32 :: b) = wordsOf a ++ wordsOf b := by
  have key : ∀ a : Bytes, (a ++ 32 :: b).splitOnP isWhite = a.splitOnP isWhite ++ b.splitOnP isWhite := by
    intro a
    induction a with
    | nil => rw [List.nil_append, List.splitOnP_cons_eq_if_modifyHead, if_pos (by decide), List.splitOnP_nil]; rfl
    | cons x a ih =>
      rw [List.cons_append, List.splitOnP_cons_eq_if_modifyHead, ih, List.splitOnP_cons_eq_if_modifyHead]
      cases hs : a.splitOnP isWhite with
      | nil => exact absurd hs (List.splitOnP_ne_nil _ _)
      | cons y ys =>
        by_cases hx : isWhite x = true
        · rw [if_pos hx, if_pos hx]; rfl
        · rw [if_neg hx, if_neg hx]; rfl
  rw [wordsOf, key, List.filter_append, ← wordsOf, ← wordsOf]

/-- C06 (what fails): the check counts space characters. Any odd number of list words is accepted if one of the spaces between
them is doubled, or if a space stands before the first or after the last word. -/
theorem C06_odd_accepted (ws : List Bytes) (hw : ∀ w ∈ ws, w ∈ wordlist) (hodd : ws.length % 2 = 1) :
    (∀ us vs, ws = us ++ vs → us ≠ [] → vs ≠ [] → wordsOf (phrase us ++ 32 :: 32 :: phrase vs) = ws ∧
      ∃ v, mnemonic2bin (phrase us ++ 32 :: 32 :: phrase vs) = ok v) ∧
    (wordsOf (32 :: phrase ws) = ws ∧ ∃ v, mnemonic2bin (32 :: phrase ws) = ok v) ∧
    (wordsOf (phrase ws ++ [32]) = ws ∧ ∃ v, mnemonic2bin (phrase ws ++ [32]) = ok v) := by
  have hsp : ∀ w ∈ wordlist, (32 : UInt8) ∉ w := fun w h => List.count_eq_zero.mp (count_word w h)
  have hnil : wordsOf [] = [] := by simp [wordsOf]
  have hph : ∀ us : List Bytes, (∀ w ∈ us, w ∈ wordlist) → wordsOf (phrase us) = us := fun us h => wordsOf_join us h
  have hcs : ∀ us : List Bytes, (∀ w ∈ us, w ∈ wordlist) → (phrase us).count 32 = us.length - 1 := fun us h =>
    count_phrase us fun w hx => hsp w (h w hx)
  have fin : ∀ s, wordsOf s = ws → s.count 32 = ws.length → wordsOf s = ws ∧ ∃ v, mnemonic2bin s = ok v := by
    intro s h1 h2
    exact ⟨h1, (C05_mnemonic_accepts s).1.mpr ⟨by omega, by rw [h1]; exact hw⟩⟩
  refine ⟨?_, ?_, ?_⟩
  · rintro us vs rfl h1 h2
    have hu : ∀ w ∈ us, w ∈ wordlist := fun w h => hw w (List.mem_append_left _ h)
    have hv : ∀ w ∈ vs, w ∈ wordlist := fun w h => hw w (List.mem_append_right _ h)
    have l1 := List.length_pos_iff.mpr h1
    have l2 := List.length_pos_iff.mpr h2
    apply fin
    · rw [wordsOf_space, hph us hu, show (32 :: phrase vs : Bytes) = [] ++ 32 :: phrase vs from rfl, wordsOf_space, hnil, hph vs hv]
      rfl
    · rw [List.count_append, List.count_cons_self, List.count_cons_self, hcs us hu, hcs vs hv, List.length_append]
      omega
  · apply fin
    · rw [show (32 :: phrase ws : Bytes) = [] ++ 32 :: phrase ws from rfl, wordsOf_space, hnil, hph ws hw]; rfl
    · rw [List.count_cons_self, hcs ws hw]; omega
  · apply fin
    · rw [wordsOf_space, hnil, hph ws hw, List.append_nil]
    · rw [List.count_append, hcs ws hw, show ([32] : Bytes).count 32 = 1 from rfl]; omega

/-- C06: the property "a phrase with an odd number of words is rejected" is false of the code. -/
theorem C06_refuted : ¬ ∀ s : Bytes, (wordsOf s).length % 2 = 1 → mnemonic2bin s = .throw .invalidArgument := by
  intro h
  have hm : wordAt 0 ∈ wordlist := wordAt_mem (by omega)
  obtain ⟨-, ⟨h1, v, h2⟩, -⟩ := C06_odd_accepted [wordAt 0, wordAt 0, wordAt 0] (by simp [hm]) rfl
  have := h _ (by rw [h1]; rfl)
  rw [h2] at this
  cases this

/-- The nibbles that wait in `current`. -/
def waiting (b c : Nat) : List Nat := if b = 0 then [] else if b = 1 then [c] else [c / 16, c % 16]

theorem mnemonicLoop_value : ∀ (is : List Nat) (b c : Nat), (∀ i ∈ is, i < 4096) →
    (b = 0 ∧ c = 0) ∨ (b = 1 ∧ c < 16) ∨ (b = 2 ∧ c < 256) →
    mnemonicLoop (is.map wordAt) b c = ok (nibblesToBytes (waiting b c ++ is.flatMap nibbles3)) := by
  intro is
  induction is with
  | nil =>
    intro b c _ h
    rcases h with ⟨rfl, rfl⟩ | ⟨rfl, h⟩ | ⟨rfl, h⟩
    · rfl
    · have : c &&& 255 = c := by
        rw [show (255 : Nat) = 2 ^ 8 - 1 from rfl, Nat.and_two_pow_sub_one_eq_mod]
        omega
      simp [mnemonicLoop, waiting, nibblesToBytes, this]
    · have : c &&& 255 = c := by
        rw [show (255 : Nat) = 2 ^ 8 - 1 from rfl, Nat.and_two_pow_sub_one_eq_mod]
        omega
      have h2 : 16 * (c / 16) + c % 16 = c := by omega
      simp [mnemonicLoop, waiting, nibblesToBytes, this, h2]
  | cons i is ih =>
    intro b c hi h
    have hlt : i < 4096 := hi i (by simp)
    have hi' : ∀ j ∈ is, j < 4096 := fun j hj => hi j (by simp [hj])
    rw [List.map_cons, mnemonicLoop, wordLookup_getElem (getElem?_wordAt hlt)]
    dsimp only
    rw [Nat.shiftLeft_eq, List.flatMap_cons]
    rcases h with ⟨rfl, rfl⟩ | ⟨rfl, h⟩ | ⟨rfl, h⟩
    · rw [show 0 + 3 = 3 from rfl, drain3]
      dsimp only
      rw [ih 1 _ hi' (Or.inr (Or.inl ⟨rfl, by omega⟩))]
      have e1 : (0 * 2 ^ 12 + i) / 16 = 16 * (i / 256) + i / 16 % 16 := by omega
      have e2 : (0 * 2 ^ 12 + i) % 16 = i % 16 := by omega
      rw [e1, e2]
      rfl
    · rw [show 1 + 3 = 4 from rfl, drain4]
      dsimp only
      rw [ih 2 _ hi' (Or.inr (Or.inr ⟨rfl, by omega⟩))]
      have e1 : (c * 2 ^ 12 + i) / 256 = 16 * c + i / 256 := by omega
      have e2 : (c * 2 ^ 12 + i) % 256 = i % 256 := by omega
      have e3 : i % 256 / 16 = i / 16 % 16 := by omega
      have e4 : i % 256 % 16 = i % 16 := by omega
      rw [e1, e2]
      show ok (UInt8.ofNat (16 * c + i / 256) :: nibblesToBytes (i % 256 / 16 :: i % 256 % 16 :: _)) = _
      rw [e3, e4]
      rfl
    · rw [show 2 + 3 = 5 from rfl, drain5]
      dsimp only
      rw [ih 1 _ hi' (Or.inr (Or.inl ⟨rfl, by omega⟩))]
      have e1 : (c * 2 ^ 12 + i) / 4096 = 16 * (c / 16) + c % 16 := by omega
      have e2 : (c * 2 ^ 12 + i) % 4096 / 16 = 16 * (i / 256) + i / 16 % 16 := by omega
      have e3 : (c * 2 ^ 12 + i) % 16 = i % 16 := by omega
      rw [e1, e2, e3]
      rfl

/-- C05. What an accepted phrase decodes to: the 12-bit numbers of its words, written one after the other and cut into
bytes; if the number of words is odd (C06), the last nibble is a byte of its own. -/
theorem C05_mnemonic_value (s v : Bytes) (h : mnemonic2bin s = ok v) :
    ∃ is : List Nat, (∀ i ∈ is, i < 4096) ∧ wordsOf s = is.map (fun i => wordlist.getD i []) ∧
      v = nibblesToBytes (is.flatMap nibbles3) := by
  obtain ⟨is, hi, hw⟩ := words_indices (wordsOf s) (C05_mnemonic_words s v h)
  refine ⟨is, hi, hw.symm, ?_⟩
  unfold mnemonic2bin at h
  dsimp only at h
  split at h
  · cases h
  · rw [streamWords_wordsOf, ← hw, mnemonicLoop_value is 0 0 hi (Or.inl ⟨rfl, rfl⟩)] at h
    cases h
    rfl

theorem ofNat8_inj {a b : Nat} (ha : a < 256) (hb : b < 256) (h : UInt8.ofNat a = UInt8.ofNat b) : a = b := by
  have := congrArg UInt8.toNat h
  rw [UInt8.toNat_ofNat_of_lt' ha, UInt8.toNat_ofNat_of_lt' hb] at this
  exact this

theorem length_nibblesToBytes : ∀ l : List Nat, (nibblesToBytes l).length = (l.length + 1) / 2
  | [] => rfl
  | [_] => by simp [nibblesToBytes]
  | a :: b :: rest => by
    rw [nibblesToBytes, List.length_cons, length_nibblesToBytes rest]
    simp only [List.length_cons]
    omega

theorem nibblesToBytes_inj : ∀ l l' : List Nat, l.length = l'.length → (∀ x ∈ l, x < 16) → (∀ x ∈ l', x < 16) →
    nibblesToBytes l = nibblesToBytes l' → l = l'
  | [], l', hl, _, _, _ => (List.length_eq_zero_iff.mp hl.symm).symm
  | [a], [a'], _, h, h', e => by
    rw [nibblesToBytes, nibblesToBytes] at e
    have := h a (by simp)
    have := h' a' (by simp)
    rw [ofNat8_inj (by omega) (by omega) (List.cons.inj e).1]
  | a :: b :: l, a' :: b' :: l', hl, h, h', e => by
    rw [nibblesToBytes, nibblesToBytes] at e
    have h1 := h a (by simp)
    have h2 := h b (by simp)
    have h1' := h' a' (by simp)
    have h2' := h' b' (by simp)
    have e1 := ofNat8_inj (by omega) (by omega) (List.cons.inj e).1
    have e2 := nibblesToBytes_inj l l' (by simpa using hl) (fun x hx => h x (by simp [hx])) (fun x hx => h' x (by simp [hx]))
      (List.cons.inj e).2
    rw [e2, show a = a' by omega, show b = b' by omega]

theorem length_nibbles (is : List Nat) : (is.flatMap nibbles3).length = 3 * is.length := by
  induction is with
  | nil => rfl
  | cons i is ih => rw [List.flatMap_cons, List.length_append, ih, List.length_cons, nibbles3]; simp; omega

theorem nibbles_lt (is : List Nat) (h : ∀ i ∈ is, i < 4096) : ∀ x ∈ is.flatMap nibbles3, x < 16 := by
  intro x hx
  obtain ⟨i, hi, hx⟩ := List.mem_flatMap.mp hx
  have := h i hi
  simp only [nibbles3, List.mem_cons, List.not_mem_nil, or_false] at hx
  omega

theorem nibbles_inj : ∀ is is' : List Nat, is.flatMap nibbles3 = is'.flatMap nibbles3 → is = is'
  | [], [], _ => rfl
  | [], _ :: _, h => by simp [nibbles3] at h
  | _ :: _, [], h => by simp [nibbles3] at h
  | i :: is, i' :: is', h => by
    simp only [List.flatMap_cons, nibbles3, List.cons_append, List.nil_append, List.cons.injEq] at h
    obtain ⟨h1, h2, h3, h4⟩ := h
    rw [nibbles_inj is is' h4, show i = i' by omega]

/-- C05. Two accepted phrases (canonical or not, of even or odd length) decode to the same bytes exactly if they have the
same words; only the white space between them may differ. -/
theorem C05_mnemonic_same_words (s s' v v' : Bytes) (h : mnemonic2bin s = ok v) (h' : mnemonic2bin s' = ok v') :
    v = v' ↔ wordsOf s = wordsOf s' := by
  obtain ⟨is, hi, hw, hv⟩ := C05_mnemonic_value s v h
  obtain ⟨is', hi', hw', hv'⟩ := C05_mnemonic_value s' v' h'
  constructor
  · intro e
    rw [hv, hv'] at e
    have hl := congrArg List.length e
    rw [length_nibblesToBytes, length_nibblesToBytes, length_nibbles, length_nibbles] at hl
    have := nibblesToBytes_inj _ _ (by rw [length_nibbles, length_nibbles]; omega) (nibbles_lt is hi) (nibbles_lt is' hi') e
    rw [hw, hw', nibbles_inj _ _ this]
  · intro e
    have h2 : mnemonicLoop (wordsOf s) 0 0 = ok v := by
      unfold mnemonic2bin at h
      dsimp only at h
      split at h
      · cases h
      · rwa [streamWords_wordsOf] at h
    have h3 : mnemonicLoop (wordsOf s') 0 0 = ok v' := by
      unfold mnemonic2bin at h'
      dsimp only at h'
      split at h'
      · cases h'
      · rwa [streamWords_wordsOf] at h'
    rw [e, h3] at h2
    cases h2
    rfl

/-- A phrase of one word and one space is accepted: 12 bits in two bytes. -/
example : mnemonic2bin (wordAt 0xABC ++ [32]) = ok [0xAB, 0x0C] := by
  have hm : wordAt 0xABC ∈ wordlist := wordAt_mem (by omega)
  have hn := word_no_white _ hm
  have he := (wordlist_word _ hm).1
  have hw : wordsOf (wordAt 0xABC ++ [32]) = [wordAt 0xABC] := by
    unfold wordsOf
    rw [List.splitOnP_append_cons_of_forall_mem hn _ (by decide)]
    simp [he]
  obtain ⟨v, hv⟩ := (C05_mnemonic_accepts (wordAt 0xABC ++ [32])).1.mpr
    ⟨by simp [List.count_append, count_word _ hm], by rw [hw]; simpa using hm⟩
  have hl := mnemonicLoop_value [0xABC] 0 0 (by simp) (Or.inl ⟨rfl, rfl⟩)
  unfold mnemonic2bin at hv ⊢
  dsimp only at hv ⊢
  split at hv
  · cases hv
  · rename_i hc
    rw [if_neg hc, streamWords_wordsOf, hw]
    exact hl
end Qrl.Props
