import Verif.Props.Js
import Verif.Props.Identity
import Verif.Props.OneKey
/-!
# C84: seed phrases with mistakes

A wallet is restored from the phrase a user types in: `mnemonic2bin` and the extended-seed constructor, or `Xmss.fromMnemonic` in
JavaScript. `wordsOf` (Verif.Spec.Text) are the words of a text, `nibbles3` the three hex digits of a word's number.
-/

namespace Qrl.Props

open Outcome Spec

/-- Restoring a wallet from a phrase with the C++ API (and Python and Go). -/
def restore (S : Sha256) (s : Bytes) : Outcome XmssFast := do
  let e ← mnemonic2bin s
  XmssFast.fromExtendedSeed S e

/-- The 48 secret bytes that 32 words spell. -/
def seedOfWords (is : List Nat) : Bytes := nibblesToBytes (is.flatMap nibbles3)

/-- The word with number `i`. -/
abbrev wordNo (i : Nat) : Bytes := wordlist.getD i []

theorem nibblesToBytes_six (a b c d e f : Nat) (l : List Nat) :
    nibblesToBytes (a :: b :: c :: d :: e :: f :: l) =
      UInt8.ofNat (16 * a + b) :: UInt8.ofNat (16 * c + d) :: UInt8.ofNat (16 * e + f) :: nibblesToBytes l := by
  rw [nibblesToBytes, nibblesToBytes, nibblesToBytes]

theorem wordNo_inj {i j : Nat} (hi : i < 4096) (hj : j < 4096) (h : wordNo i = wordNo j) : i = j := by
  have h1 := getElem?_wordAt hi
  have h2 := getElem?_wordAt hj
  rw [show wordAt j = wordAt i from h.symm] at h2
  exact (List.nodup_iff_getElem?_ne_getElem?.mp wordlist_nodup |> fun H =>
    Classical.byContradiction fun hne => by
      rcases Nat.lt_or_gt_of_ne hne with hlt | hgt
      · exact H i j hlt (by rw [wordlist_length]; exact hj) (by rw [h1, h2])
      · exact H j i hgt (by rw [wordlist_length]; exact hi) (by rw [h1, h2]))

theorem map_wordNo_inj : ∀ {is js : List Nat}, (∀ i ∈ is, i < 4096) → (∀ i ∈ js, i < 4096) →
    is.map wordNo = js.map wordNo → is = js
  | [], [], _, _, _ => rfl
  | [], _ :: _, _, _, h => by cases h
  | _ :: _, [], _, _, h => by cases h
  | i :: is, j :: js, hi, hj, h => by
    rw [List.map_cons, List.map_cons] at h
    rw [wordNo_inj (hi i (by simp)) (hj j (by simp)) (List.cons.inj h).1,
      map_wordNo_inj (fun x hx => hi x (by simp [hx])) (fun x hx => hj x (by simp [hx])) (List.cons.inj h).2]

/-- The decoded bytes of a phrase whose words and number of spaces are known. -/
theorem mnemonic_decodes (s : Bytes) (is : List Nat) (hc : s.count 32 % 2 = 1) (hi : ∀ i ∈ is, i < 4096) (hw : wordsOf s = is.map wordNo) :
    mnemonic2bin s = ok (nibblesToBytes (is.flatMap nibbles3)) := by
  obtain ⟨v, hv⟩ := (C05_mnemonic_accepts s).1.mpr ⟨hc, by
    rw [hw]
    intro w hw'
    obtain ⟨i, hi', rfl⟩ := List.mem_map.mp hw'
    exact wordAt_mem (hi i hi')⟩
  obtain ⟨js, hj, hjw, rfl⟩ := C05_mnemonic_value s v hv
  rw [hw] at hjw
  rw [hv, map_wordNo_inj hi hj hjw]

theorem split_34 (i0 i1 : Nat) (rest : List Nat) :
    nibblesToBytes ((i0 :: i1 :: rest).flatMap nibbles3) =
      UInt8.ofNat (i0 / 16) :: UInt8.ofNat (16 * (i0 % 16) + i1 / 256) :: UInt8.ofNat (i1 % 256) :: seedOfWords rest := by
  have e : ((i0 :: i1 :: rest).flatMap nibbles3) =
      (i0 / 256) :: (i0 / 16 % 16) :: (i0 % 16) :: (i1 / 256) :: (i1 / 16 % 16) :: (i1 % 16) :: rest.flatMap nibbles3 := rfl
  rw [e, nibblesToBytes_six, show 16 * (i0 / 256) + i0 / 16 % 16 = i0 / 16 by omega,
    show 16 * (i1 / 16 % 16) + i1 % 16 = i1 % 256 by omega]
  rfl

theorem length_seedOfWords (is : List Nat) (h : is.length = 32) : (seedOfWords is).length = 48 := by
  rw [seedOfWords, length_nibblesToBytes, length_nibbles, h]

/-- C84. **What a phrase of 34 list words restores**: the first word gives hash function and address format, the second the height, the other
32 the seed; nothing checks that they belong together. The JavaScript `fromMnemonic` ignores the address format. -/
theorem C84_value (S : Sha256) (s : Bytes) (i0 i1 : Nat) (rest : List Nat) (hc : s.count 32 % 2 = 1) (h0 : i0 < 4096) (h1 : i1 < 4096)
    (hr : ∀ i ∈ rest, i < 4096) (hl : rest.length = 32) (hw : wordsOf s = (i0 :: i1 :: rest).map wordNo) :
    restore S s = XmssFast.new S (seedOfWords rest) (UInt8.ofNat (2 * (i1 / 256))) (i0 / 16 % 16) (i0 % 16) ∧
    Js.xmssFromMnemonic S s = XmssFast.new S (seedOfWords rest) (UInt8.ofNat (2 * (i1 / 256))) (i0 / 16 % 16) 0 := by
  have hall : ∀ i ∈ i0 :: i1 :: rest, i < 4096 := by
    intro i hi
    rcases List.mem_cons.mp hi with rfl | hi
    · exact h0
    · rcases List.mem_cons.mp hi with rfl | hi
      · exact h1
      · exact hr i hi
  have hd := mnemonic_decodes s _ hc hall hw
  rw [split_34 i0 i1 rest] at hd
  have hs := length_seedOfWords rest hl
  have e0 : (UInt8.ofNat (i0 / 16)).toNat = i0 / 16 := UInt8.toNat_ofNat_of_lt' (show _ < 256 by omega)
  have e1 : (UInt8.ofNat (16 * (i0 % 16) + i1 / 256)).toNat = 16 * (i0 % 16) + i1 / 256 := UInt8.toNat_ofNat_of_lt' (show _ < 256 by omega)
  constructor
  · rw [restore, hd, ok_bind, C09_extended_seed_constructor S _ _ _ _ hs, e0, e1,
      show (16 * (i0 % 16) + i1 / 256) % 16 = i1 / 256 by omega, show (16 * (i0 % 16) + i1 / 256) / 16 = i0 % 16 by omega]
  · have hx := C40_hexseed S (UInt8.ofNat (i0 / 16)) (UInt8.ofNat (16 * (i0 % 16) + i1 / 256)) (UInt8.ofNat (i1 % 256)) _ hs
    rw [Js.xmssFromHexSeed, ← C01_hex_encoding, C01_hex_roundtrip, ok_bind, e0, e1,
      show (16 * (i0 % 16) + i1 / 256) % 16 = i1 / 256 by omega] at hx
    rw [Js.xmssFromMnemonic, hd, ok_bind, hx]

/-- C84. **What is noticed.** Every other text is refused with `invalid_argument`: one with an even number of space characters, with a
word that is not in the list, or with more or less than 34 words. -/
theorem C84_refused (S : Sha256) (s : Bytes) (h : s.count 32 % 2 = 0 ∨ (∃ w ∈ wordsOf s, w ∉ wordlist) ∨ (wordsOf s).length ≠ 34) :
    restore S s = .throw .invalidArgument ∧ Js.xmssFromMnemonic S s = .throw .invalidArgument := by
  rcases (C05_mnemonic_accepts s).2 with ⟨v, hv⟩ | ht
  · obtain ⟨hc, hw⟩ := (C05_mnemonic_accepts s).1.mp ⟨v, hv⟩
    have h34 : (wordsOf s).length ≠ 34 := by
      rcases h with h | ⟨w, h1, h2⟩ | h
      · omega
      · exact absurd (hw w h1) h2
      · exact h
    obtain ⟨is, hi, hws, rfl⟩ := C05_mnemonic_value s v hv
    rw [hws, List.length_map] at h34
    have hlen : (nibblesToBytes (is.flatMap nibbles3)).length ≠ 51 := by
      rw [length_nibblesToBytes, length_nibbles]; omega
    constructor
    · rw [restore, hv, ok_bind]
      exact (C39_extended_seed_throws S _ _).mpr ⟨rfl, Or.inl hlen⟩
    · rw [Js.xmssFromMnemonic, hv, ok_bind]
      exact fromSeedBytes_short S _ hlen
  · rw [restore, Js.xmssFromMnemonic, ht]
    exact ⟨rfl, rfl⟩

/-- C84. With C39 and C36: exactly which phrases restore a wallet. -/
theorem C84_accepts (S : Sha256) (s : Bytes) :
    (∃ o, restore S s = ok o) ↔
      s.count 32 % 2 = 1 ∧ ∃ i0 i1 rest, i0 < 4096 ∧ i1 < 4096 ∧ (∀ i ∈ rest, i < 4096) ∧ rest.length = 32 ∧
        wordsOf s = (i0 :: i1 :: rest).map wordNo ∧ i0 / 16 % 16 ≤ 2 ∧ 2 ≤ i1 / 256 := by
  constructor
  · rintro ⟨o, ho⟩
    by_cases hb : s.count 32 % 2 = 0 ∨ (∃ w ∈ wordsOf s, w ∉ wordlist) ∨ (wordsOf s).length ≠ 34
    · rw [(C84_refused S s hb).1] at ho; cases ho
    · have hc : s.count 32 % 2 = 1 := by
        have : ¬ s.count 32 % 2 = 0 := fun h => hb (Or.inl h)
        omega
      have hw : ∀ w ∈ wordsOf s, w ∈ wordlist := fun w h1 => Classical.byContradiction fun h2 => hb (Or.inr (Or.inl ⟨w, h1, h2⟩))
      have hl : (wordsOf s).length = 34 := Classical.byContradiction fun h => hb (Or.inr (Or.inr h))
      obtain ⟨is, hi, hws⟩ := words_indices _ hw
      rw [← hws, List.length_map] at hl
      obtain ⟨i0, i1, rest, rfl⟩ : ∃ i0 i1 rest, is = i0 :: i1 :: rest := by
        match is, hl with
        | a :: b :: r, _ => exact ⟨a, b, r, rfl⟩
      have hr : rest.length = 32 := by simpa using hl
      have h0 := hi i0 (by simp)
      have h1 := hi i1 (by simp)
      have hrest : ∀ i ∈ rest, i < 4096 := fun i hx => hi i (by simp [hx])
      refine ⟨hc, i0, i1, rest, h0, h1, hrest, hr, hws.symm, ?_⟩
      rw [(C84_value S s i0 i1 rest hc h0 h1 hrest hr hws.symm).1] at ho
      obtain ⟨-, ⟨g1, -, -⟩, g2⟩ := (C39_fast_succeeds S _ _ _ _).mp ⟨o, ho⟩
      rw [UInt8.toNat_ofNat_of_lt' (show 2 * (i1 / 256) < 256 by omega)] at g1
      exact ⟨g2, by omega⟩
  · rintro ⟨hc, i0, i1, rest, h0, h1, hr, hl, hw, g1, g2⟩
    rw [(C84_value S s i0 i1 rest hc h0 h1 hr hl hw).1]
    refine (C39_fast_succeeds S _ _ _ _).mpr ⟨length_seedOfWords rest hl, ?_, g1⟩
    rw [GoodHeight, UInt8.toNat_ofNat_of_lt' (show 2 * (i1 / 256) < 256 by omega)]
    omega

theorem seedOfWords_inj {is js : List Nat} (hi : ∀ i ∈ is, i < 4096) (hj : ∀ i ∈ js, i < 4096) (hl : is.length = js.length)
    (h : seedOfWords is = seedOfWords js) : is = js :=
  nibbles_inj _ _ (nibblesToBytes_inj _ _ (by rw [length_nibbles, length_nibbles, hl]) (nibbles_lt is hi) (nibbles_lt js hj) h)

/-- C84. **Which phrases are the same wallet.** Two phrases that restore wallets restore the same one exactly if they agree in words 3 to
34, in the hash function and address format of the first word and in the height of the second: 16 first words times 256
second words stand for one wallet. -/
theorem C84_same_wallet (S : Sha256) (s s' : Bytes) (o o' : XmssFast) (h : restore S s = ok o) (h' : restore S s' = ok o') (i0 i1 : Nat)
    (rest : List Nat) (i0' i1' : Nat) (rest' : List Nat) (hi : ∀ i ∈ i0 :: i1 :: rest, i < 4096)
    (hi' : ∀ i ∈ i0' :: i1' :: rest', i < 4096) (hw : wordsOf s = (i0 :: i1 :: rest).map wordNo)
    (hw' : wordsOf s' = (i0' :: i1' :: rest').map wordNo) :
    o = o' ↔ i0 % 256 = i0' % 256 ∧ i1 / 256 = i1' / 256 ∧ rest = rest' := by
  have key : ∀ (s : Bytes) (o : XmssFast) (i0 i1 : Nat) (rest : List Nat), restore S s = ok o →
      (∀ i ∈ i0 :: i1 :: rest, i < 4096) → wordsOf s = (i0 :: i1 :: rest).map wordNo →
      rest.length = 32 ∧ XmssFast.new S (seedOfWords rest) (UInt8.ofNat (2 * (i1 / 256))) (i0 / 16 % 16) (i0 % 16) = ok o := by
    intro s o i0 i1 rest h hi hw
    obtain ⟨hc, j0, j1, js, h0, h1, hr, hl, hjw, -⟩ := (C84_accepts S s).mp ⟨o, h⟩
    have hj : ∀ i ∈ j0 :: j1 :: js, i < 4096 := by
      intro i hi
      rcases List.mem_cons.mp hi with rfl | hi
      · exact h0
      · rcases List.mem_cons.mp hi with rfl | hi
        · exact h1
        · exact hr i hi
    rw [hw] at hjw
    have e := map_wordNo_inj hi hj hjw
    simp only [List.cons.injEq] at e
    obtain ⟨rfl, rfl, rfl⟩ := e
    exact ⟨hl, by rw [← (C84_value S s i0 i1 rest hc h0 h1 hr hl hw).1, h]⟩
  obtain ⟨l, e⟩ := key s o i0 i1 rest h hi hw
  obtain ⟨l', e'⟩ := key s' o' i0' i1' rest' h' hi' hw'
  have b0 := hi i0 (by simp)
  have b1 := hi i1 (by simp)
  have b0' := hi' i0' (by simp)
  have b1' := hi' i1' (by simp)
  constructor
  · rintro rfl
    obtain ⟨-, -, f, -, -, g1, g2, g3, g4, -⟩ := fast_fresh e
    obtain ⟨-, -, f', -, -, g1', g2', g3', g4', -⟩ := fast_fresh e'
    rw [g2] at g2'
    rw [g3] at g3'
    have e1 := congrArg UInt8.toNat (g1.symm.trans g1')
    rw [UInt8.toNat_ofNat_of_lt' (show 2 * (i1 / 256) < 256 by omega), UInt8.toNat_ofNat_of_lt' (show 2 * (i1' / 256) < 256 by omega)] at e1
    refine ⟨by omega, by omega, ?_⟩
    exact seedOfWords_inj (fun i hx => hi i (by simp [hx])) (fun i hx => hi' i (by simp [hx])) (by rw [l, l']) (g4.symm.trans g4')
  · rintro ⟨e1, e2, rfl⟩
    rw [show i0' / 16 % 16 = i0 / 16 % 16 by omega, show i0' % 16 = i0 % 16 by omega, ← e2, e] at e'
    exact Outcome.ok.inj e'

/-- C84. **A wrong word is not noticed** (nor two words swapped): if any of the words 3 to 34 of a wallet's own phrase are replaced by other
list words, whichever and however many, the phrase still restores a wallet, of the same height, hash function and address format,
and it is another one: its seed is different, and it has the same public key only if C78 gives a collision. -/
theorem C84_wrong_word_refuted (S : Sha256) (seed : Bytes) (height : UInt8) (hf : HashFn) (af : Nat) (haf : af < 16) (o0 : XmssFast)
    (hnew : XmssFast.new S seed height hf.toNat af = ok o0) (cs : List Call) (rs : List Reply) (o : XmssFast)
    (hrun : runCalls (XmssFast.call S) o0 cs = some (rs, o)) :
    ∃ (w0 w1 : Bytes) (ws : List Bytes), ws.length = 32 ∧ (∀ w ∈ w0 :: w1 :: ws, w ∈ wordlist) ∧
      bin2mnemonic o.getExtendedSeed = ok (phrase (w0 :: w1 :: ws)) ∧
      restore S (phrase (w0 :: w1 :: ws)) = ok o0 ∧
      ∀ ws' : List Bytes, ws'.length = 32 → (∀ w ∈ ws', w ∈ wordlist) → ws' ≠ ws →
        ∃ seed' o', seed' ≠ seed ∧ XmssFast.new S seed' height hf.toNat af = ok o' ∧ restore S (phrase (w0 :: w1 :: ws')) = ok o' ∧
          Js.xmssFromMnemonic S (phrase (w0 :: w1 :: ws')) = XmssFast.new S seed' height hf.toNat 0 ∧
          ∀ pk, o.getPK = ok pk → o'.getPK = ok pk →
            ((shake256 96 seed).take 32 = (shake256 96 seed').take 32 ∧ (shake256 96 seed).drop 64 = (shake256 96 seed').drop 64) ∨
            Collides (hf.prim S)
              (nodeCalls (hf.prim S) 16 (lenW 16) ((shake256 96 seed).take 32) ((shake256 96 seed).drop 64) height.toNat 0 ++
               nodeCalls (hf.prim S) 16 (lenW 16) ((shake256 96 seed').take 32) ((shake256 96 seed').drop 64) height.toNat 0) := by
  obtain ⟨-, hg, -⟩ := fast_fresh hnew
  have hst := C26_fast_stable S seed height hf.toNat af o0 hnew cs rs o hrun
  have hrt := C09_extended_seed_roundtrip S seed height hf.toNat af haf o0 hnew cs rs o hrun
  have hel : o.getExtendedSeed.length = 51 := Classical.byContradiction fun h => by
    rw [(C39_extended_seed_throws S _ .invalidArgument).mpr ⟨rfl, Or.inl h⟩] at hrt; cases hrt
  have hne : o.getExtendedSeed ≠ [] := by intro h; rw [h] at hel; cases hel
  have hm := C04_mnemonic_encoding o.getExtendedSeed (by rw [hel])
  have hdec := C04_mnemonic_roundtrip o.getExtendedSeed (by rw [hel]) hne
  rw [hm, ok_bind] at hdec
  have hgr : restore S (phrase ((groups12 o.getExtendedSeed).map fun i => wordlist.getD i [])) = ok o0 := by
    rw [restore, hdec, ok_bind, hrt]
  obtain ⟨hc, i0, i1, rest, h0, h1, hr, hl, hw, g1, g2⟩ := (C84_accepts S _).mp ⟨o0, hgr⟩
  have hlist : ∀ w ∈ (groups12 o.getExtendedSeed).map (fun i => wordlist.getD i []), w ∈ wordlist := by
    have := C05_mnemonic_words _ _ hdec
    intro w hw'
    obtain ⟨i, hi, rfl⟩ := List.mem_map.mp hw'
    exact wordAt_mem (groups12_lt _ i hi)
  have hws := wordsOf_join _ hlist
  rw [show joinLines 32 ((groups12 o.getExtendedSeed).map (fun i => wordlist.getD i [])) =
    phrase ((groups12 o.getExtendedSeed).map (fun i => wordlist.getD i [])) from rfl, hw] at hws
  rw [← hws] at hm hgr hc hw
  have hv := (C84_value S _ i0 i1 rest hc h0 h1 hr hl hw).1
  rw [hgr] at hv
  obtain ⟨-, -, f, -, -, f1, f2, f3, f4, -⟩ := fast_fresh hnew
  obtain ⟨-, -, f', -, -, f1', f2', f3', f4', -⟩ := fast_fresh hv.symm
  rw [f1] at f1'
  rw [f2] at f2'
  rw [f3] at f3'
  rw [f4] at f4'
  refine ⟨wordNo i0, wordNo i1, rest.map wordNo, by rw [List.length_map, hl], ?_, hm, hgr, ?_⟩
  · intro w hx
    rcases List.mem_cons.mp hx with rfl | hx
    · exact wordAt_mem h0
    · rcases List.mem_cons.mp hx with rfl | hx
      · exact wordAt_mem h1
      · obtain ⟨i, hi, rfl⟩ := List.mem_map.mp hx
        exact wordAt_mem (hr i hi)
  intro ws' hl' hw' hne'
  obtain ⟨js, hj, hjs⟩ := words_indices ws' hw'
  rw [show wordAt = wordNo from rfl] at hjs
  subst hjs
  rw [List.length_map] at hl'
  have hlist' : ∀ w ∈ wordNo i0 :: wordNo i1 :: js.map wordNo, w ∈ wordlist := by
    intro w hx
    rcases List.mem_cons.mp hx with rfl | hx
    · exact wordAt_mem h0
    · rcases List.mem_cons.mp hx with rfl | hx
      · exact wordAt_mem h1
      · exact hw' w hx
  have hsp : (phrase (wordNo i0 :: wordNo i1 :: js.map wordNo)).count 32 % 2 = 1 := by
    obtain ⟨v, hv, -⟩ := C05_mnemonic_canonical (wordNo i0 :: wordNo i1 :: js.map wordNo) hlist' (by simp)
      (by simp only [List.length_cons, List.length_map, hl'])
    exact ((C05_mnemonic_accepts _).1.mp ⟨v, hv⟩).1
  obtain ⟨hv', hjs'⟩ := C84_value S (phrase (wordNo i0 :: wordNo i1 :: js.map wordNo)) i0 i1 js hsp h0 h1 hj hl' (wordsOf_join _ hlist')
  rw [← f1', ← f2', ← f3'] at hv'
  rw [← f1', ← f2'] at hjs'
  have hsd : seedOfWords js ≠ seed := by
    intro h
    rw [f4'] at h
    exact hne' (by rw [seedOfWords_inj hj hr (by rw [hl', hl]) h])
  obtain ⟨o', ho'⟩ := (C39_fast_succeeds S (seedOfWords js) height hf.toNat af).mpr ⟨length_seedOfWords js hl', hg, by cases hf <;> decide⟩
  refine ⟨seedOfWords js, o', hsd, ho', by rw [hv', ho'], hjs', ?_⟩
  intro pk hpk hpk'
  rw [hst.2.2.2.2.1] at hpk
  rcases (C78_fast_public_key S seed (seedOfWords js) height height hf hf af af o0 o' hnew ho' pk hpk hpk').2.2 with h | h | h
  · exact absurd h.symm hsd
  · exact Or.inl h.2
  · exact Or.inr h

theorem joinLines_snoc : ∀ (ws : List Bytes) (w : Bytes), ws ≠ [] → joinLines 32 (ws ++ [w]) = joinLines 32 ws ++ 32 :: w
  | [], _, h => absurd rfl h
  | [_], _, _ => rfl
  | a :: b :: ws, w, _ => by
    have ih := joinLines_snoc (b :: ws) w (by simp)
    show a ++ 32 :: joinLines 32 (b :: ws ++ [w]) = (a ++ 32 :: joinLines 32 (b :: ws)) ++ 32 :: w
    rw [ih, List.append_assoc, List.cons_append]

/-- C84. **A wrong letter is not noticed**: there are list words that differ in one letter (number 3, "abide", and number 7, "abode"), so
there are two phrases that differ in a single letter and restore two different wallets. -/
theorem C84_letter_refuted (S : Sha256) :
    ∃ (p q : Bytes) (a b : UInt8) (o o' : XmssFast), a ≠ b ∧ restore S (p ++ a :: q) = ok o ∧ restore S (p ++ b :: q) = ok o' ∧ o ≠ o' := by
  have ea : wordNo 3 = [97, 98] ++ 105 :: [100, 101] := by decide +kernel
  have eb : wordNo 7 = [97, 98] ++ 111 :: [100, 101] := by decide +kernel
  have hlt : ∀ k : Nat, k < 4096 → ∀ i ∈ 0 :: 512 :: (List.replicate 31 0 ++ [k]), i < 4096 := by
    intro k hk i hi
    simp only [List.mem_cons, List.mem_append, List.mem_replicate, List.not_mem_nil, or_false] at hi
    omega
  have hmem : ∀ k : Nat, k < 4096 → ∀ w ∈ (0 :: 512 :: (List.replicate 31 0 ++ [k])).map wordNo, w ∈ wordlist := by
    intro k hk w hw
    obtain ⟨i, hi, rfl⟩ := List.mem_map.mp hw
    exact wordAt_mem (hlt k hk i hi)
  have hres : ∀ k : Nat, k < 4096 → ∃ o, restore S (phrase ((0 :: 512 :: (List.replicate 31 0 ++ [k])).map wordNo)) = ok o := by
    intro k hk
    obtain ⟨v, hv, -⟩ := C05_mnemonic_canonical _ (hmem k hk) (by simp) (by simp)
    refine (C84_accepts S _).mpr ⟨((C05_mnemonic_accepts _).1.mp ⟨v, hv⟩).1, 0, 512, List.replicate 31 0 ++ [k], by omega, by omega, ?_,
      by simp, wordsOf_join _ (hmem k hk), by omega, by omega⟩
    exact fun i hi => hlt k hk i (List.mem_cons_of_mem _ (List.mem_cons_of_mem _ hi))
  obtain ⟨o, ho⟩ := hres 3 (by omega)
  obtain ⟨o', ho'⟩ := hres 7 (by omega)
  have hne := (not_congr (C84_same_wallet S _ _ o o' ho ho' 0 512 (List.replicate 31 0 ++ [3]) 0 512 (List.replicate 31 0 ++ [7])
    (hlt 3 (by omega)) (hlt 7 (by omega)) (wordsOf_join _ (hmem 3 (by omega))) (wordsOf_join _ (hmem 7 (by omega))))).mpr (by simp)
  have hj : ∀ k : Nat, phrase ((0 :: 512 :: (List.replicate 31 0 ++ [k])).map wordNo) =
      joinLines 32 ((0 :: 512 :: List.replicate 31 0).map wordNo) ++ 32 :: wordNo k := by
    intro k
    rw [← joinLines_snoc _ _ (by simp), ← List.map_singleton, ← List.map_append]
    rfl
  rw [hj 3, ea] at ho
  rw [hj 7, eb] at ho'
  refine ⟨joinLines 32 ((0 :: 512 :: List.replicate 31 0).map wordNo) ++ 32 :: [97, 98], [100, 101], 105, 111, o, o', by decide, ?_, ?_, hne⟩
  · rw [List.append_assoc]; exact ho
  · rw [List.append_assoc]; exact ho'

/-- One wrong word, whichever, in the phrase of a concrete wallet. -/
theorem demo_phrase (S : Sha256) : ∃ (o0 : XmssFast) (w0 w1 : Bytes) (ws : List Bytes), ws.length = 32 ∧
    XmssFast.new S zeroSeed 4 0 0 = ok o0 ∧ bin2mnemonic o0.getExtendedSeed = ok (phrase (w0 :: w1 :: ws)) ∧
    ∀ k < 32, ∀ x ∈ wordlist, x ≠ ws.getD k [] → ∃ o', restore S (phrase (w0 :: w1 :: ws.set k x)) = ok o' ∧ o' ≠ o0 := by
  obtain ⟨o0, h0⟩ := (C39_fast_succeeds S zeroSeed 4 0 0).mpr ⟨by decide, goodHeight4, by omega⟩
  obtain ⟨w0, w1, ws, hl, hwl, h1, h2, h3⟩ := C84_wrong_word_refuted S zeroSeed 4 .sha2_256 0 (by omega) o0 h0 [] [] o0 rfl
  refine ⟨o0, w0, w1, ws, hl, h0, h1, ?_⟩
  intro k hk x hx hne
  obtain ⟨seed', o', g1, g2, g3, -⟩ := h3 (ws.set k x) (by simp [hl]) (by
    intro w hw
    rcases List.mem_or_eq_of_mem_set hw with h | rfl
    · exact hwl w (by simp [h])
    · exact hx) (by
    intro h
    apply hne
    rw [List.getD_eq_getElem?_getD, ← h, List.getElem?_set_self (by omega)]
    rfl)
  refine ⟨o', g3, ?_⟩
  rintro rfl
  obtain ⟨-, -, -, -, -, -, -, -, e, -⟩ := fast_fresh g2
  obtain ⟨-, -, -, -, -, -, -, -, e', -⟩ := fast_fresh h0
  exact g1 (e.symm.trans e')

example : ∃ (o0 : XmssFast) (w0 w1 : Bytes) (ws : List Bytes), ws.length = 32 ∧ XmssFast.new toySha zeroSeed 4 0 0 = ok o0 ∧
    bin2mnemonic o0.getExtendedSeed = ok (phrase (w0 :: w1 :: ws)) ∧
    ∀ k < 32, ∀ x ∈ wordlist, x ≠ ws.getD k [] → ∃ o', restore toySha (phrase (w0 :: w1 :: ws.set k x)) = ok o' ∧ o' ≠ o0 :=
  demo_phrase toySha

/-- 33 or 35 list words are refused, and so is any unknown word. -/
example (S : Sha256) (ws : List Bytes) (hw : ∀ w ∈ ws, w ∈ wordlist) (hl : ws.length = 33 ∨ ws.length = 35) :
    restore S (phrase ws) = .throw .invalidArgument :=
  (C84_refused S _ (Or.inr (Or.inr (by rw [wordsOf_join _ hw]; omega)))).1

end Qrl.Props
