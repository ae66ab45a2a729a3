import Verif.Proof.RustMisc
/-!
# C55: the text helpers of the Rust port

A Rust text is a list of characters; `utf8` are its bytes, `ascii t` is the text with the codes `t`.
-/

namespace Qrl.Props

open Qrl.Spec

/-- C55. `bin2hstr` prints what C++ prints, for every wrap. -/
theorem C55_hex_same (v : Bytes) (wrap : Nat) :
    Rs.bin2hstr v wrap = ascii (bin2hstr v wrap) ∧ utf8 (Rs.bin2hstr v wrap) = bin2hstr v wrap :=
  ⟨Rs.bin2hstr_eq v wrap, by rw [Rs.bin2hstr_eq]; exact Rs.str2bin_ofCodes _ (Rs.bin2hstr_small v wrap)⟩

/-- C55. `hstr2bin` accepts exactly the texts whose bytes C++ accepts, with the same result. -/
theorem C55_hstr2bin_same (s : List Char) (v : Bytes) : Rs.hstr2bin s = .ok v ↔ hstr2bin (utf8 s) = .ok v :=
  Rs.hstr2bin_eq s v

/-- C55. Every other text, whatever its characters, is `Err`: no panic. -/
theorem C55_hstr2bin_total (s : List Char) : (∃ v, Rs.hstr2bin s = .ok v) ∨ Rs.hstr2bin s = .err .invalidArgument :=
  Rs.hstr2bin_total s

/-- C55. Hex round trip. -/
theorem C55_hex_roundtrip (v : Bytes) : Rs.hstr2bin (Rs.bin2hstr v 0) = .ok v := by
  rw [C55_hstr2bin_same, (C55_hex_same v 0).2, C01_hex_roundtrip]

/-- C55. `bin2mnemonic` fails exactly on sizes that are not a multiple of 3 and otherwise gives the C++ phrase. -/
theorem C55_mnemonic_same (v : Bytes) :
    (v.length % 3 ≠ 0 → Rs.bin2mnemonic v = .err .invalidArgument) ∧
    (v.length % 3 = 0 → ∃ s, bin2mnemonic v = .ok s ∧ Rs.bin2mnemonic v = .ok (ascii s)) := by
  constructor
  · intro h; rw [Rs.bin2mnemonic, if_pos h]
  · intro h
    refine ⟨_, C04_mnemonic_encoding v h, ?_⟩
    rw [Rs.bin2mnemonic, if_neg (Decidable.not_not.mpr h)]
    have e := C04_mnemonic_encoding v h
    rw [bin2mnemonic, if_neg (Decidable.not_not.mpr h)] at e
    exact Rs.bin2mnemonicLoop_eq v _ 0 _ (Nat.le_refl _) e

/-- C55. `mnemonic2bin` accepts exactly the texts with an even number of words, all from the list; anything else is `Err`,
and there is no panic. Words are separated by Unicode white space. -/
theorem C55_mnemonic_accepts (s : List Char) :
    ((∃ v, Rs.mnemonic2bin s = .ok v) ↔
      (uniWords s).length % 2 = 0 ∧ ∀ w ∈ uniWords s, ∃ u ∈ wordlist, w = ascii u) ∧
    ((∃ v, Rs.mnemonic2bin s = .ok v) ∨ Rs.mnemonic2bin s = .err .invalidArgument) := by
  unfold Rs.mnemonic2bin
  rw [Rs.splitWhitespace_words]
  dsimp only
  by_cases h : (uniWords s).length % 2 = 0
  · rw [if_neg (Decidable.not_not.mpr h)]
    refine ⟨⟨?_, ?_⟩, Rs.mnemonicLoop_total _ _ _⟩
    · rintro ⟨v, hv⟩
      refine ⟨h, fun w hw => ?_⟩
      obtain ⟨u, hu, e⟩ := List.mem_map.mp (Rs.mnemonicLoop_words _ _ _ v hv w hw)
      exact ⟨u, hu, e.symm⟩
    · rintro ⟨_, hw⟩
      obtain ⟨us, hus, e⟩ := Rs.words_codes (uniWords s) fun w hw' => by
        obtain ⟨u, hu, e⟩ := hw w hw'
        rw [e]
        exact List.mem_map_of_mem hu
      rw [e] at h ⊢
      rw [List.length_map] at h
      obtain ⟨is, hi, rfl⟩ := words_indices us hus
      rw [List.length_map] at h
      exact ⟨_, (Rs.mnemonicLoop_codes _ 0 0 _).mpr (mnemonicLoop_pairs (is.length / 2) is (by omega) hi)⟩
  · rw [if_pos h]
    exact ⟨⟨(fun ⟨v, hv⟩ => by cases hv), (fun h' => absurd h'.1 h)⟩, Or.inr rfl⟩

/-- C55. What it returns: the bytes whose phrase are the words of the text, joined by single spaces. -/
theorem C55_mnemonic_value (s : List Char) (v : Bytes) (h : Rs.mnemonic2bin s = .ok v) :
    Rs.bin2mnemonic v = .ok (spaced (uniWords s)) := by
  obtain ⟨he, hw⟩ := (C55_mnemonic_accepts s).1.mp ⟨v, h⟩
  obtain ⟨us, hus, e⟩ := Rs.words_codes (uniWords s) fun w hw' => by
    obtain ⟨u, hu, e⟩ := hw w hw'
    rw [e]
    exact List.mem_map_of_mem hu
  unfold Rs.mnemonic2bin at h
  rw [Rs.splitWhitespace_words] at h
  dsimp only at h
  rw [if_neg (Decidable.not_not.mpr he)] at h
  rw [e] at he h ⊢
  rw [List.length_map] at he
  obtain ⟨is, hi, rfl⟩ := words_indices us hus
  rw [List.length_map] at he
  have hl : is.length = 2 * (is.length / 2) := by omega
  have hp := mnemonicLoop_pairs (is.length / 2) is hl hi
  have hv := (Rs.mnemonicLoop_codes _ 0 0 v).mp h
  rw [hp] at hv
  cases hv
  have hlen : (bytesOfGroups is).length % 3 = 0 := by rw [length_bytesOfGroups _ is hl]; omega
  obtain ⟨t, h1, h2⟩ := (C55_mnemonic_same (bytesOfGroups is)).2 hlen
  rw [h2]
  rw [bin2mnemonic_eq (is.length / 2) _ (length_bytesOfGroups _ is hl), groups_bytes _ is hl hi] at h1
  cases h1
  rw [← Rs.ofCodes_phrase]
  rfl

/-- C55. Mnemonic round trip, for every size that is a multiple of 3 (the empty vector included, which C++ refuses). -/
theorem C55_mnemonic_roundtrip (v : Bytes) (h : v.length % 3 = 0) :
    (Rs.bin2mnemonic v >>= Rs.mnemonic2bin) = .ok v := by
  have hl : v.length = 3 * (v.length / 3) := by omega
  obtain ⟨t, h1, h2⟩ := (C55_mnemonic_same v).2 h
  rw [h2, Rs.Res.ok_bind]
  rw [bin2mnemonic_eq _ v hl] at h1
  cases h1
  have hm : ∀ w ∈ (groups12 v).map wordAt, w ∈ wordlist := by
    intro w hw
    obtain ⟨i, h3, rfl⟩ := List.mem_map.mp hw
    exact wordAt_mem (groups12_lt v i h3)
  have h7 : ∀ c ∈ joinLines 32 ((groups12 v).map wordAt), c < 128 := by
    have key : ∀ ws : List Bytes, (∀ w ∈ ws, w ∈ wordlist) → ∀ c ∈ joinLines 32 ws, c < 128 := by
      have hword : ∀ w ∈ wordlist, ∀ c ∈ w, c < 128 := by
        intro w hw c hc
        have := (wordlist_word w hw).2 c hc
        rw [UInt8.lt_iff_toNat_lt]
        show c.toNat < 128
        omega
      intro ws
      induction ws with
      | nil => intro _ c hc; cases hc
      | cons w ws ih =>
        intro hws c hc
        cases ws with
        | nil => exact hword w (hws w (by simp)) c hc
        | cons x ws =>
          rw [joinLines] at hc
          · rcases List.mem_append.mp hc with hc | hc
            · exact hword w (hws w (by simp)) c hc
            · rcases List.mem_cons.mp hc with rfl | hc
              · decide
              · exact ih (fun w hw => hws w (by simp [hw])) c hc
          · simp
    exact key _ hm
  have hsp := Rs.split_codes _ [] h7
  rw [streamWords_wordsOf, wordsOf_join _ hm] at hsp
  have hg := length_groups12 _ v hl
  unfold Rs.mnemonic2bin
  dsimp only
  rw [show ascii (joinLines 32 ((groups12 v).map wordAt)) = Rs.ofCodes (joinLines 32 ((groups12 v).map wordAt)) from rfl]
  rw [show Rs.ofCodes [] = [] from rfl] at hsp
  rw [hsp, if_neg (by rw [List.length_map, List.length_map, hg]; omega)]
  rw [Rs.mnemonicLoop_codes, mnemonicLoop_pairs (v.length / 3) _ hg (groups12_lt v), bytes_groups _ v hl]

/-- C55. On 7-bit text, a phrase C++ accepts with an even number of words gives the same bytes in Rust, and a phrase Rust
accepts with an odd number of space characters gives the same bytes in C++. -/
theorem C55_mnemonic_cpp (t v : Bytes) (h7 : ∀ c ∈ t, c < 128) :
    (mnemonic2bin t = .ok v → (wordsOf t).length % 2 = 0 → Rs.mnemonic2bin (ascii t) = .ok v) ∧
    (Rs.mnemonic2bin (ascii t) = .ok v → t.count 32 % 2 = 1 → mnemonic2bin t = .ok v) := by
  have hsp := Rs.split_codes _ [] h7
  rw [show Rs.ofCodes [] = [] from rfl] at hsp
  unfold Rs.mnemonic2bin mnemonic2bin
  dsimp only
  rw [show ascii t = Rs.ofCodes t from rfl, hsp, List.length_map, streamWords_wordsOf]
  constructor
  · intro h he
    rw [if_neg (Decidable.not_not.mpr he), Rs.mnemonicLoop_codes]
    split at h
    · cases h
    · exact h
  · intro h hc
    rw [if_neg (by omega)]
    split at h
    · cases h
    · exact (Rs.mnemonicLoop_codes _ 0 0 v).mp h

/-- C55. The two ports do not accept the same phrases: two words separated by a tab are accepted by Rust only, three
words each followed by a space by C++ only. -/
theorem C55_mnemonic_cpp_refuted (a b c : Bytes) (ha : a ∈ wordlist) (hb : b ∈ wordlist) (hc : c ∈ wordlist) :
    (∃ v, Rs.mnemonic2bin (ascii (a ++ 9 :: b)) = .ok v) ∧ mnemonic2bin (a ++ 9 :: b) = .throw .invalidArgument ∧
    (∃ v, mnemonic2bin (a ++ 32 :: (b ++ 32 :: (c ++ [32]))) = .ok v) ∧
    Rs.mnemonic2bin (ascii (a ++ 32 :: (b ++ 32 :: (c ++ [32])))) = .err .invalidArgument := by
  have hsmall : ∀ w ∈ wordlist, ∀ c ∈ w, c < 128 := by
    intro w hw c hc
    have := (wordlist_word w hw).2 c hc
    rw [UInt8.lt_iff_toNat_lt]
    show c.toNat < 128
    omega
  refine ⟨?_, ?_, ?_⟩
  · rw [(C55_mnemonic_accepts _).1]
    have h7 : ∀ x ∈ a ++ 9 :: b, x < 128 := by
      intro x hx
      rcases List.mem_append.mp hx with hx | hx
      · exact hsmall a ha x hx
      · rcases List.mem_cons.mp hx with rfl | hx
        · decide
        · exact hsmall b hb x hx
    have hw : wordsOf (a ++ 9 :: b) = [a, b] := by
      rw [wordsOf, List.splitOnP_append_cons_of_forall_mem (word_no_white a ha) _ (by decide),
        List.splitOnP_eq_singleton (word_no_white b hb)]
      simp [(wordlist_word a ha).1, (wordlist_word b hb).1]
    have hsp := Rs.split_codes _ [] h7
    rw [streamWords_wordsOf, hw, show Rs.ofCodes [] = [] from rfl, Rs.splitWhitespace_words] at hsp
    rw [show ascii (a ++ 9 :: b) = Rs.ofCodes (a ++ 9 :: b) from rfl, hsp]
    refine ⟨by simp, ?_⟩
    intro w hw
    simp only [List.map_cons, List.map_nil, List.mem_cons, List.not_mem_nil, or_false] at hw
    rcases hw with rfl | rfl
    · exact ⟨a, ha, rfl⟩
    · exact ⟨b, hb, rfl⟩
  · rw [mnemonic2bin, if_pos]
    have : (a ++ 9 :: b).count 32 = 0 := by
      rw [List.count_append, List.count_cons, count_word a ha, count_word b hb]; rfl
    rw [this]; decide
  · have h7 : ∀ x ∈ a ++ 32 :: (b ++ 32 :: (c ++ [32])), x < 128 := by
      intro x hx
      simp only [List.mem_append, List.mem_cons, List.not_mem_nil, or_false] at hx
      rcases hx with hx | rfl | hx | rfl | hx | rfl
      · exact hsmall a ha x hx
      · decide
      · exact hsmall b hb x hx
      · decide
      · exact hsmall c hc x hx
      · decide
    have hw : wordsOf (a ++ 32 :: (b ++ 32 :: (c ++ [32]))) = [a, b, c] := by
      rw [wordsOf, List.splitOnP_append_cons_of_forall_mem (word_no_white a ha) _ (by decide),
        List.splitOnP_append_cons_of_forall_mem (word_no_white b hb) _ (by decide),
        List.splitOnP_append_cons_of_forall_mem (word_no_white c hc) _ (by decide)]
      simp [(wordlist_word a ha).1, (wordlist_word b hb).1, (wordlist_word c hc).1]
    have hcnt : (a ++ 32 :: (b ++ 32 :: (c ++ [32]))).count 32 = 3 := by
      simp [List.count_append, count_word a ha, count_word b hb, count_word c hc]
    have hsp := Rs.split_codes _ [] h7
    rw [show Rs.ofCodes [] = [] from rfl, streamWords_wordsOf, hw] at hsp
    refine ⟨?_, ?_⟩
    · rw [(C05_mnemonic_accepts _).1, hcnt, hw]
      refine ⟨rfl, ?_⟩
      intro w hw
      simp only [List.mem_cons, List.not_mem_nil, or_false] at hw
      rcases hw with rfl | rfl | rfl
      · exact ha
      · exact hb
      · exact hc
    · rw [Rs.mnemonic2bin, show ascii (a ++ 32 :: (b ++ 32 :: (c ++ [32]))) = Rs.ofCodes (a ++ 32 :: (b ++ 32 :: (c ++ [32]))) from rfl,
        hsp, if_pos (by simp)]

/-- Hex with capital letters and a non-ASCII text. -/
example : Rs.hstr2bin ['A', 'f', '0', '9'] = .ok [0xAF, 0x09] ∧ Rs.hstr2bin ['é'] = .err .invalidArgument := by
  constructor <;> decide +kernel

example : (Rs.bin2mnemonic [1, 2, 3, 250, 251, 252] >>= Rs.mnemonic2bin) = .ok [1, 2, 3, 250, 251, 252] :=
  C55_mnemonic_roundtrip _ (by decide)

/-- Words separated by an ideographic space. -/
example : uniWords ['a', '\u3000', 'b', ' ', ' '] = [['a'], ['b']] := by
  rw [← Rs.splitWhitespace_words]; decide +kernel

end Qrl.Props
