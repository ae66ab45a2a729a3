import Verif.Props.Phrase
import Verif.Props.RustText
import Verif.Props.RustStable
/-!
# C86: a seed phrase between the C++ library and the Rust port

`restore` (Verif.Props.Phrase) restores a wallet from a phrase with the C++ API, `rustRestore` with the Rust API. `wordsOf` are the
words of a byte string, `uniWords` the words of a Unicode text (Verif.Spec.Text, Verif.Spec.RustText).
-/

namespace Qrl.Props

open Outcome Spec

/-- Restoring a wallet from a phrase with the Rust API. -/
def rustRestore (b : Rs.Build) (S : Sha256) (s : List Char) : Rs.Res Rs.XMSSFast := do
  let e ← Rs.mnemonic2bin s
  Rs.XMSSFast.fromExtendedSeed b S e

theorem groups_nibbles : ∀ (n : Nat) (is : List Nat), is.length = 2 * n →
    bytesOfGroups is = nibblesToBytes (is.flatMap nibbles3)
  | 0, is, h => by rw [List.length_eq_zero_iff.mp (show is.length = 0 by omega)]; rfl
  | n + 1, is, h => by
    match is, h with
    | i :: j :: is, h =>
      have ih := groups_nibbles n is (by simp only [List.length_cons] at h; omega)
      rw [split_34, bytesOfGroups, ih, Nat.mul_comm (i % 16) 16]
      rfl

theorem rs_mnemonic_decodes (s : List Char) (is : List Nat) (he : is.length % 2 = 0) (hi : ∀ i ∈ is, i < 4096)
    (hw : uniWords s = is.map fun i => ascii (wordNo i)) : Rs.mnemonic2bin s = .ok (nibblesToBytes (is.flatMap nibbles3)) := by
  have e : uniWords s = (is.map wordAt).map Rs.ofCodes := by rw [hw, List.map_map]; rfl
  unfold Rs.mnemonic2bin
  rw [Rs.splitWhitespace_words]
  dsimp only
  rw [e, if_neg (by rw [List.length_map, List.length_map]; omega)]
  rw [← groups_nibbles (is.length / 2) is (by omega)]
  exact (Rs.mnemonicLoop_codes _ 0 0 _).mpr (mnemonicLoop_pairs (is.length / 2) is (by omega) hi)

theorem rs_from_desc (b0 b1 b2 : UInt8) (f : HashFn) (h0 : b0.toNat % 16 = f.toNat) (h1 : b1.toNat / 16 = 0) :
    Rs.Descriptor.fromBytes [b0, b1, b2] = .ok ⟨f, UInt8.ofNat (2 * (b1.toNat % 16))⟩ :=
  (C54_from_bytes _ _).mpr ⟨b0, b1, b2, rfl, h0, h1, rfl⟩

/-- C86. **What 34 list words restore in Rust**, whatever white space separates them: the wallet that the C++ library gets from them
(C84_value, C51_fast_same_key), provided the first word names a supported hash function and address format 0; otherwise it is an error. -/
theorem C86_value (b : Rs.Build) (S : Sha256) (s : List Char) (i0 i1 : Nat) (rest : List Nat) (h0 : i0 < 4096) (h1 : i1 < 4096)
    (hr : ∀ i ∈ rest, i < 4096) (hl : rest.length = 32) (hw : uniWords s = (i0 :: i1 :: rest).map fun i => ascii (wordNo i)) :
    (∀ f : HashFn, f.toNat = i0 / 16 % 16 → i0 % 16 = 0 →
      rustRestore b S s = Rs.XMSSFast.new b S (seedOfWords rest) (UInt8.ofNat (2 * (i1 / 256))) f 16) ∧
    (2 < i0 / 16 % 16 ∨ i0 % 16 ≠ 0 → ∃ e, rustRestore b S s = .err e) := by
  have hall : ∀ i ∈ i0 :: i1 :: rest, i < 4096 := by
    intro i hi
    rcases List.mem_cons.mp hi with rfl | hi
    · exact h0
    · rcases List.mem_cons.mp hi with rfl | hi
      · exact h1
      · exact hr i hi
  have hd := rs_mnemonic_decodes s (i0 :: i1 :: rest) (by simp only [List.length_cons, hl]) hall hw
  rw [split_34 i0 i1 rest] at hd
  have hs := length_seedOfWords rest hl
  have e0 : (UInt8.ofNat (i0 / 16)).toNat = i0 / 16 := UInt8.toNat_ofNat_of_lt' (show _ < 256 by omega)
  have e1 : (UInt8.ofNat (16 * (i0 % 16) + i1 / 256)).toNat = 16 * (i0 % 16) + i1 / 256 := UInt8.toNat_ofNat_of_lt' (show _ < 256 by omega)
  rw [rustRestore, hd, Rs.Res.ok_bind]
  constructor
  · intro f hf ha
    have hdesc := rs_from_desc (UInt8.ofNat (i0 / 16)) (UInt8.ofNat (16 * (i0 % 16) + i1 / 256)) (UInt8.ofNat (i1 % 256)) f
      (by rw [e0, hf]) (by rw [e1]; omega)
    have := C51_from_extended_seed b S _ _ _ hdesc hs
    rw [e1, show (16 * (i0 % 16) + i1 / 256) % 16 = i1 / 256 by omega] at this
    exact this
  · intro hbad
    rcases C54_from_bytes_total [UInt8.ofNat (i0 / 16), UInt8.ofNat (16 * (i0 % 16) + i1 / 256), UInt8.ofNat (i1 % 256)] with ⟨d, hd⟩ | ⟨e, he⟩
    · obtain ⟨_, _, _, hb, g0, g1, -⟩ := (C54_from_bytes _ _).mp hd
      simp only [List.cons.injEq, and_true] at hb
      obtain ⟨rfl, rfl, rfl⟩ := hb
      rw [e0] at g0
      rw [e1] at g1
      have : d.hashFunction.toNat ≤ 2 := by cases d.hashFunction <;> decide
      omega
    · refine ⟨e, ?_⟩
      have hlen : (UInt8.ofNat (i0 / 16) :: UInt8.ofNat (16 * (i0 % 16) + i1 / 256) :: UInt8.ofNat (i1 % 256) :: seedOfWords rest).length = 51 := by
        simp only [List.length_cons, hs]
      rw [Rs.XMSSFast.fromExtendedSeed, Rs.XMSSBase.fromExtendedSeed, if_neg (by rw [hlen]; omega),
        Rs.Descriptor.fromExtendedSeed, if_neg (by rw [hlen]; omega)]
      simp only [List.take_succ_cons, List.take_zero, he]
      rfl

theorem rs_words_indices (ws : List (List Char)) (h : ∀ w ∈ ws, ∃ u ∈ wordlist, w = ascii u) :
    ∃ is : List Nat, (∀ i ∈ is, i < 4096) ∧ ws = is.map fun i => ascii (wordNo i) := by
  obtain ⟨us, hus, rfl⟩ := Rs.words_codes ws fun w hw => by
    obtain ⟨u, hu, rfl⟩ := h w hw
    exact List.mem_map_of_mem hu
  obtain ⟨is, hi, rfl⟩ := words_indices us hus
  exact ⟨is, hi, by rw [List.map_map]; rfl⟩

/-- C86. **Exactly which texts restore a wallet in Rust**; every other text is an error, never a panic. -/
theorem C86_accepts (b : Rs.Build) (S : Sha256) (s : List Char) :
    ((∃ o, rustRestore b S s = .ok o) ↔
      ∃ i0 i1 rest, i0 < 4096 ∧ i1 < 4096 ∧ (∀ i ∈ rest, i < 4096) ∧ rest.length = 32 ∧
        uniWords s = (i0 :: i1 :: rest).map (fun i => ascii (wordNo i)) ∧ i0 / 16 % 16 ≤ 2 ∧ i0 % 16 = 0 ∧ 2 ≤ i1 / 256) ∧
    ((∃ o, rustRestore b S s = .ok o) ∨ ∃ e, rustRestore b S s = .err e) := by
  have good : ∀ i0 i1 rest, i0 < 4096 → i1 < 4096 → (∀ i ∈ rest, i < 4096) → rest.length = 32 →
        uniWords s = (i0 :: i1 :: rest).map (fun i => ascii (wordNo i)) → i0 / 16 % 16 ≤ 2 → i0 % 16 = 0 → 2 ≤ i1 / 256 →
      ∃ o, rustRestore b S s = .ok o := by
    intro i0 i1 rest h0 h1 hr hl hw g1 g2 g3
    obtain ⟨f, -, hf⟩ := ofNat?_of_le g1
    rw [(C86_value b S s i0 i1 rest h0 h1 hr hl hw).1 f hf g2]
    obtain ⟨o, _, ho, _⟩ := C51_fast_same_key b S (seedOfWords rest) (UInt8.ofNat (2 * (i1 / 256))) f (length_seedOfWords rest hl) (by
      rw [GoodHeight, UInt8.toNat_ofNat_of_lt' (show 2 * (i1 / 256) < 256 by omega)]
      omega)
    exact ⟨o, ho⟩
  rcases (C55_mnemonic_accepts s).2 with ⟨v, hv⟩ | he
  · obtain ⟨hev, hws⟩ := (C55_mnemonic_accepts s).1.mp ⟨v, hv⟩
    obtain ⟨is, hi, hw⟩ := rs_words_indices _ hws
    rw [hw, List.length_map] at hev
    have hdec := rs_mnemonic_decodes s is hev hi hw
    by_cases h34 : is.length = 34
    · obtain ⟨i0, i1, rest, rfl⟩ : ∃ i0 i1 rest, is = i0 :: i1 :: rest := by
        match is, h34 with
        | a :: c :: r, _ => exact ⟨a, c, r, rfl⟩
      have hl : rest.length = 32 := by simpa using h34
      have h0 := hi i0 (by simp)
      have h1 := hi i1 (by simp)
      have hr : ∀ i ∈ rest, i < 4096 := fun i hx => hi i (by simp [hx])
      obtain ⟨v1, v2⟩ := C86_value b S s i0 i1 rest h0 h1 hr hl hw
      by_cases hg : 2 < i0 / 16 % 16 ∨ i0 % 16 ≠ 0
      · obtain ⟨e, he⟩ := v2 hg
        refine ⟨⟨fun ⟨o, ho⟩ => (by rw [he] at ho; cases ho), ?_⟩, Or.inr ⟨e, he⟩⟩
        rintro ⟨j0, j1, js, k0, k1, k2, k3, k4, k5, k6, k7⟩
        exact good j0 j1 js k0 k1 k2 k3 k4 k5 k6 k7
      · obtain ⟨f, -, hf⟩ := ofNat?_of_le (show i0 / 16 % 16 ≤ 2 by omega)
        have hv1 := v1 f hf (by omega)
        by_cases hh : 2 ≤ i1 / 256
        · have hok := good i0 i1 rest h0 h1 hr hl hw (by omega) (by omega) hh
          exact ⟨⟨fun _ => ⟨i0, i1, rest, h0, h1, hr, hl, hw, by omega, by omega, hh⟩, fun _ => hok⟩, Or.inl hok⟩
        · rw [(C51_new_refuses b S _ _ f 16 (Or.inr (Or.inl (by
            rw [UInt8.toNat_ofNat_of_lt' (show 2 * (i1 / 256) < 256 by omega)]; omega)))).1] at hv1
          refine ⟨⟨fun ⟨o, ho⟩ => (by rw [hv1] at ho; cases ho), ?_⟩, Or.inr ⟨_, hv1⟩⟩
          rintro ⟨j0, j1, js, k0, k1, k2, k3, k4, k5, k6, k7⟩
          exact good j0 j1 js k0 k1 k2 k3 k4 k5 k6 k7
    · have herr : rustRestore b S s = .err .invalidArgument := by
        rw [rustRestore, hdec, Rs.Res.ok_bind, Rs.XMSSFast.fromExtendedSeed, Rs.XMSSBase.fromExtendedSeed, if_pos]
        · rfl
        · rw [length_nibblesToBytes, length_nibbles]; omega
      refine ⟨⟨fun ⟨o, ho⟩ => (by rw [herr] at ho; cases ho), ?_⟩, Or.inr ⟨_, herr⟩⟩
      rintro ⟨j0, j1, js, k0, k1, k2, k3, k4, k5, k6, k7⟩
      exact good j0 j1 js k0 k1 k2 k3 k4 k5 k6 k7
  · have herr : rustRestore b S s = .err .invalidArgument := by rw [rustRestore, he]; rfl
    refine ⟨⟨fun ⟨o, ho⟩ => (by rw [herr] at ho; cases ho), ?_⟩, Or.inr ⟨_, herr⟩⟩
    rintro ⟨j0, j1, js, k0, k1, k2, k3, k4, k5, k6, k7⟩
    exact good j0 j1 js k0 k1 k2 k3 k4 k5 k6 k7

theorem uniWords_ascii (t : Bytes) (h7 : ∀ c ∈ t, c < 128) : uniWords (ascii t) = (wordsOf t).map ascii := by
  have hsp := Rs.split_codes t [] h7
  rw [show Rs.ofCodes [] = [] from rfl, streamWords_wordsOf] at hsp
  rw [← Rs.splitWhitespace_words]
  exact hsp

theorem ascii_inj_words {is js : List Nat} (hi : ∀ i ∈ is, i < 4096) (hj : ∀ i ∈ js, i < 4096)
    (h : (is.map wordNo).map ascii = js.map fun i => ascii (wordNo i)) : is = js := by
  have key : ∀ i < 4096, ∀ j < 4096, ascii (wordNo i) = ascii (wordNo j) → i = j := by
    intro i hi j hj h
    refine wordNo_inj hi hj ?_
    have code : ∀ x : UInt8, x < 128 → UInt8.ofNat (Char.ofNat x.toNat).toNat = x := by
      apply u8_forall; decide +kernel
    have back : ∀ w ∈ wordlist, (ascii w).map (fun c => UInt8.ofNat c.toNat) = w := by
      intro w hw
      rw [ascii, List.map_map]
      conv_rhs => rw [← List.map_id w]
      refine List.map_congr_left fun x hx => ?_
      have := (wordlist_word w hw).2 x hx
      exact code x (by rw [UInt8.lt_iff_toNat_lt]; show x.toNat < 128; omega)
    have e1 : (ascii (wordNo i)).map _ = wordNo i := back _ (wordAt_mem hi)
    have e2 : (ascii (wordNo j)).map _ = wordNo j := back _ (wordAt_mem hj)
    rw [← e1, ← e2, h]
  induction is generalizing js with
  | nil => cases js with
    | nil => rfl
    | cons => cases h
  | cons i is ih => cases js with
    | nil => cases h
    | cons j js =>
      simp only [List.map_cons, List.cons.injEq] at h
      rw [key i (hi i (by simp)) j (hj j (by simp)) h.1, ih (fun x hx => hi x (by simp [hx])) (fun x hx => hj x (by simp [hx])) h.2]

/-- C86. **One phrase, two libraries.** A 7-bit text is restored by Rust and has an odd number of space characters exactly if the C++
library restores it as a wallet with address format 0; then both have the same secret key, index, public key, extended seed and address. -/
theorem C86_same_wallet (b : Rs.Build) (S : Sha256) (t : Bytes) (h7 : ∀ c ∈ t, c < 128) :
    (((∃ o, rustRestore b S (ascii t) = .ok o) ∧ t.count 32 % 2 = 1) ↔ ∃ c, restore S t = ok c ∧ c.addrFormat = 0) ∧
    ∀ o c, rustRestore b S (ascii t) = .ok o → restore S t = ok c →
      o.sk = c.sk ∧ o.height = c.height ∧ o.hashFunction.toNat = c.hashFunction ∧ o.seed = c.seed ∧
      (∃ i, o.getIndex = .ok i ∧ c.getIndex = ok i) ∧ (∃ pk, o.getPk = .ok pk ∧ c.getPK = ok pk) ∧
      o.getExtendedSeed = c.getExtendedSeed ∧ ∃ a, o.getAddress S = .ok a ∧ c.getAddress S = ok a := by
  have main : ∀ i0 i1 rest, i0 < 4096 → i1 < 4096 → (∀ i ∈ rest, i < 4096) → rest.length = 32 →
      uniWords (ascii t) = (i0 :: i1 :: rest).map (fun i => ascii (wordNo i)) → i0 / 16 % 16 ≤ 2 → i0 % 16 = 0 → 2 ≤ i1 / 256 →
      wordsOf t = (i0 :: i1 :: rest).map wordNo → t.count 32 % 2 = 1 →
      ∃ o c, rustRestore b S (ascii t) = .ok o ∧ restore S t = ok c ∧ SameKey o.toXMSSBase c.toXmssBase ∧ c.sk.length = 132 := by
    intro i0 i1 rest h0 h1 hr hl hw g1 g2 g3 hwt hc
    obtain ⟨f, -, hf⟩ := ofNat?_of_le g1
    have e1 := (C86_value b S (ascii t) i0 i1 rest h0 h1 hr hl hw).1 f hf g2
    have e2 := (C84_value S t i0 i1 rest hc h0 h1 hr hl hwt).1
    obtain ⟨o, c, ho, hc', hk, hl', -⟩ := C51_fast_same_key b S (seedOfWords rest) (UInt8.ofNat (2 * (i1 / 256))) f (length_seedOfWords rest hl) (by
      rw [GoodHeight, UInt8.toNat_ofNat_of_lt' (show 2 * (i1 / 256) < 256 by omega)]
      omega)
    rw [g2, ← hf, hc'] at e2
    exact ⟨o, c, e1.trans ho, e2, hk, hl'⟩
  have fromRust : ∀ o, rustRestore b S (ascii t) = .ok o → t.count 32 % 2 = 1 →
      ∃ c, restore S t = ok c ∧ SameKey o.toXMSSBase c.toXmssBase ∧ c.sk.length = 132 := by
    intro o ho hc
    obtain ⟨i0, i1, rest, h0, h1, hr, hl, hw, g1, g2, g3⟩ := (C86_accepts b S _).1.mp ⟨o, ho⟩
    have hmem : ∀ w ∈ wordsOf t, w ∈ wordlist := by
      obtain ⟨v, hv⟩ : ∃ v, Rs.mnemonic2bin (ascii t) = .ok v := by
        rcases (C55_mnemonic_accepts (ascii t)).2 with h | h
        · exact h
        · rw [rustRestore, h] at ho; cases ho
      exact C05_mnemonic_words t v ((C55_mnemonic_cpp t v h7).2 hv hc)
    obtain ⟨is, hi, his⟩ := words_indices _ hmem
    have hall : ∀ i ∈ i0 :: i1 :: rest, i < 4096 := by
      intro i hi
      rcases List.mem_cons.mp hi with rfl | hi
      · exact h0
      · rcases List.mem_cons.mp hi with rfl | hi
        · exact h1
        · exact hr i hi
    have hw' := hw
    rw [uniWords_ascii t h7, ← his] at hw'
    obtain rfl := ascii_inj_words hi hall hw'
    obtain ⟨o', c, k1, k2, k3, k4⟩ := main i0 i1 rest h0 h1 hr hl hw g1 g2 g3 his.symm hc
    rw [ho] at k1
    cases k1
    exact ⟨c, k2, k3, k4⟩
  refine ⟨⟨?_, ?_⟩, ?_⟩
  · rintro ⟨⟨o, ho⟩, hc⟩
    obtain ⟨c, h1, h2, -⟩ := fromRust o ho hc
    exact ⟨c, h1, h2.2.2.2.2⟩
  · rintro ⟨c, hc, ha⟩
    obtain ⟨hsp, i0, i1, rest, h0, h1, hr, hl, hw, g1, g2⟩ := (C84_accepts S t).mp ⟨c, hc⟩
    have e2 := (C84_value S t i0 i1 rest hsp h0 h1 hr hl hw).1
    rw [hc] at e2
    obtain ⟨-, -, f, -, -, -, -, f3, -⟩ := fast_fresh e2.symm
    obtain ⟨o, c', k1, -⟩ := main i0 i1 rest h0 h1 hr hl (by rw [uniWords_ascii t h7, hw, List.map_map]; rfl) g1 (by rw [← f3, ha]) g2 hw hsp
    exact ⟨⟨o, k1⟩, hsp⟩
  · intro o c ho hc
    obtain ⟨hsp, -⟩ := (C84_accepts S t).mp ⟨c, hc⟩
    obtain ⟨c', h1, hk, hl⟩ := fromRust o ho hsp
    rw [hc] at h1
    cases h1
    obtain ⟨-, -, -, -, g5, g6, g7⟩ := C51_same_getters _ _ hk hl
    exact ⟨hk.1, hk.2.2.1, hk.2.2.2.1, hk.2.1, g5, g6, g7, (C51_object_address S _ _ hk hl).2⟩

theorem word_low {w : Bytes} (hw : w ∈ wordlist) : ∀ c ∈ w, c < 128 := by
  intro c hc
  have := (wordlist_word w hw).2 c hc
  rw [UInt8.lt_iff_toNat_lt]
  show c.toNat < 128
  omega

theorem phrase_low : ∀ ws : List Bytes, (∀ w ∈ ws, w ∈ wordlist) → ∀ c ∈ phrase ws, c < 128
  | [], _, c, h => by cases h
  | [w], hw, c, h => word_low (hw w (by simp)) c h
  | w :: x :: ws, hw, c, h => by
    rcases List.mem_append.mp (show c ∈ w ++ 32 :: phrase (x :: ws) from h) with h | h
    · exact word_low (hw w (by simp)) c h
    · rcases List.mem_cons.mp h with rfl | h
      · decide
      · exact phrase_low (x :: ws) (fun y hy => hw y (by simp [hy])) c h

/-- C86. **A wallet's phrase moves.** The phrase that a C++ wallet with address format 0 shows after any history restores, in Rust, the new Rust
object with the same seed, height and hash function; and that object shows, after any history of its own, the same phrase, which restores the
C++ wallet. -/
theorem C86_moves (b : Rs.Build) (S : Sha256) (seed : Bytes) (height : UInt8) (hf : HashFn) (o0 : XmssFast)
    (hnew : XmssFast.new S seed height hf.toNat 0 = ok o0) (cs : List Call) (rs : List Reply) (o : XmssFast)
    (hrun : runCalls (XmssFast.call S) o0 cs = some (rs, o)) :
    ∃ p r0, bin2mnemonic o.getExtendedSeed = ok p ∧ rustRestore b S (ascii p) = .ok r0 ∧ Rs.XMSSFast.new b S seed height hf 16 = .ok r0 ∧
      restore S p = ok o0 ∧
      ∀ (cs' : List Call) (rs' : List Reply) (r : Rs.XMSSFast), runCalls (Rs.XMSSFast.call b S) r0 cs' = some (rs', r) →
        Rs.bin2mnemonic r.getExtendedSeed = .ok (ascii p) := by
  obtain ⟨w0, w1, ws, hl, hw, hp, hres, -⟩ := C84_wrong_word_refuted S seed height hf 0 (by omega) o0 hnew cs rs o hrun
  obtain ⟨hs, hh, -⟩ := fast_fresh hnew
  obtain ⟨-, i0, i1, rest, h0, h1, hr, -, hws, -⟩ := (C84_accepts S _).mp ⟨o0, hres⟩
  obtain ⟨r0, c, hr0, hc, hk, hkl, -⟩ := C51_fast_same_key b S seed height hf hs hh
  rw [hnew] at hc
  cases hc
  have hst := C26_fast_stable S seed height hf.toNat 0 o0 hnew cs rs o hrun
  have hext : r0.getExtendedSeed = o.getExtendedSeed := by
    rw [hst.2.2.2.2.2.2.1]; exact (C51_same_getters _ _ hk hkl).2.2.2.2.2.2
  have hrt := C09_extended_seed_roundtrip S seed height hf.toNat 0 (by omega) o0 hnew cs rs o hrun
  have hel : o.getExtendedSeed.length = 51 := Classical.byContradiction fun h => by
    rw [(C39_extended_seed_throws S _ .invalidArgument).mpr ⟨rfl, Or.inl h⟩] at hrt; cases hrt
  obtain ⟨t, ht1, ht2⟩ := (C55_mnemonic_same o.getExtendedSeed).2 (by rw [hel])
  rw [hp] at ht1
  cases ht1
  have hrt' := C55_mnemonic_roundtrip o.getExtendedSeed (by rw [hel])
  rw [ht2, Rs.Res.ok_bind] at hrt'
  refine ⟨_, r0, hp, ?_, hr0, hres, ?_⟩
  · rw [rustRestore, hrt', Rs.Res.ok_bind, ← hext]
    exact C51_extended_seed_roundtrip b S seed height hf hs hh r0 hr0
  · intro cs' rs' r hrun'
    have := C87_fast_calls b S seed height hf 16 ⟨by omega, by omega⟩ hs hh r0 hr0 cs' rs' r hrun'
    rw [this.2.2.2.2.2.1, hext]
    exact ht2

/-- C86, refuted: the natural property that the phrase of every wallet moves. The phrase of a C++ wallet with another address format is refused
by Rust, with an error. -/
theorem C86_format_refuted (b : Rs.Build) (S : Sha256) (seed : Bytes) (height : UInt8) (hf : HashFn) (af : Nat) (haf : af < 16) (hne : af ≠ 0)
    (o0 : XmssFast) (hnew : XmssFast.new S seed height hf.toNat af = ok o0) (cs : List Call) (rs : List Reply) (o : XmssFast)
    (hrun : runCalls (XmssFast.call S) o0 cs = some (rs, o)) :
    ∃ p, bin2mnemonic o.getExtendedSeed = ok p ∧ restore S p = ok o0 ∧ ∃ e, rustRestore b S (ascii p) = .err e := by
  obtain ⟨w0, w1, ws, hl, hw, hp, hres, -⟩ := C84_wrong_word_refuted S seed height hf af haf o0 hnew cs rs o hrun
  refine ⟨_, hp, hres, ?_⟩
  obtain ⟨-, -, f, -, -, -, -, f3, -⟩ := fast_fresh hnew
  obtain ⟨hsp, i0, i1, rest, h0, h1, hr, hrl, hws, -⟩ := (C84_accepts S _).mp ⟨o0, hres⟩
  rcases (C86_accepts b S (ascii (phrase (w0 :: w1 :: ws)))).2 with ⟨r, hr'⟩ | he
  · obtain ⟨c, hc, ha⟩ := (C86_same_wallet b S _ (phrase_low _ hw)).1.mp ⟨⟨r, hr'⟩, hsp⟩
    rw [hres] at hc
    cases hc
    rw [f3] at ha
    exact absurd ha hne
  · exact he

/-- C86, refuted: the natural property that the two libraries restore the same texts. With a space typed after a wallet's phrase the C++ library
refuses it and Rust restores the wallet. -/
theorem C86_spacing_refuted (b : Rs.Build) (S : Sha256) (seed : Bytes) (height : UInt8) (hf : HashFn) (o0 : XmssFast)
    (hnew : XmssFast.new S seed height hf.toNat 0 = ok o0) :
    ∃ p, bin2mnemonic o0.getExtendedSeed = ok p ∧ restore S p = ok o0 ∧ restore S (p ++ [32]) = .throw .invalidArgument ∧
      ∃ r, Rs.XMSSFast.new b S seed height hf 16 = .ok r ∧ rustRestore b S (ascii (p ++ [32])) = .ok r := by
  obtain ⟨w0, w1, ws, hl, hw, hp, hres, -⟩ := C84_wrong_word_refuted S seed height hf 0 (by omega) o0 hnew [] [] o0 rfl
  obtain ⟨p', r, hp', hr, hrn, -⟩ := C86_moves b S seed height hf o0 hnew [] [] o0 rfl
  rw [hp] at hp'
  cases hp'
  obtain ⟨hsp, -⟩ := (C84_accepts S _).mp ⟨o0, hres⟩
  have h7 := phrase_low _ hw
  refine ⟨_, hp, hres, (C84_refused S _ (Or.inl ?_)).1, r, hrn, ?_⟩
  · rw [List.count_append, show List.count (32 : UInt8) [32] = 1 from rfl]; omega
  · obtain ⟨i0, i1, rest, h0, h1, hr', hrl, hws, g1, g2, g3⟩ := (C86_accepts b S _).1.mp ⟨r, hr⟩
    have hws' : uniWords (ascii (phrase (w0 :: w1 :: ws) ++ [32])) = (i0 :: i1 :: rest).map (fun i => ascii (wordNo i)) := by
      rw [uniWords_ascii _ (by
        intro c hc
        rcases List.mem_append.mp hc with hc | hc
        · exact h7 c hc
        · rw [List.mem_singleton.mp hc]; decide), wordsOf_space _ [], show wordsOf [] = [] from by simp [wordsOf], List.append_nil,
        ← uniWords_ascii _ h7, hws]
    obtain ⟨f, -, hf'⟩ := ofNat?_of_le g1
    rw [(C86_value b S _ i0 i1 rest h0 h1 hr' hrl hws').1 f hf' g2, ← (C86_value b S _ i0 i1 rest h0 h1 hr' hrl hws).1 f hf' g2, hr]

/-- C86. **A wrong word is not noticed in Rust either**: whatever list words replace the words 3 to 34 of a wallet's phrase, Rust restores a wallet
of the same height and hash function with another seed. -/
theorem C86_wrong_word_refuted (b : Rs.Build) (S : Sha256) (seed : Bytes) (height : UInt8) (hf : HashFn) (o0 : XmssFast)
    (hnew : XmssFast.new S seed height hf.toNat 0 = ok o0) :
    ∃ (w0 w1 : Bytes) (ws : List Bytes), ws.length = 32 ∧ (∀ w ∈ w0 :: w1 :: ws, w ∈ wordlist) ∧
      bin2mnemonic o0.getExtendedSeed = ok (phrase (w0 :: w1 :: ws)) ∧
      ∀ ws' : List Bytes, ws'.length = 32 → (∀ w ∈ ws', w ∈ wordlist) → ws' ≠ ws →
        ∃ seed' r', seed' ≠ seed ∧ Rs.XMSSFast.new b S seed' height hf 16 = .ok r' ∧ rustRestore b S (ascii (phrase (w0 :: w1 :: ws'))) = .ok r' := by
  obtain ⟨w0, w1, ws, hl, hw, hp, hres, H⟩ := C84_wrong_word_refuted S seed height hf 0 (by omega) o0 hnew [] [] o0 rfl
  refine ⟨w0, w1, ws, hl, hw, hp, ?_⟩
  intro ws' hl' hw' hne
  obtain ⟨seed', o', hs', hn', hr', -⟩ := H ws' hl' hw' hne
  obtain ⟨hsl, hh, f, -, -, f1, f2, f3, f4, -⟩ := fast_fresh hn'
  have hlow : ∀ c ∈ phrase (w0 :: w1 :: ws'), c < 128 := phrase_low _ (by
    intro x hx
    rcases List.mem_cons.mp hx with rfl | hx
    · exact hw _ (by simp)
    · rcases List.mem_cons.mp hx with rfl | hx
      · exact hw _ (by simp)
      · exact hw' x hx)
  obtain ⟨⟨r', h1⟩, -⟩ := (C86_same_wallet b S _ hlow).1.mpr ⟨o', hr', f3⟩
  obtain ⟨k1, k2, k3, k4, -⟩ := (C86_same_wallet b S _ hlow).2 r' o' h1 hr'
  refine ⟨seed', r', hs', ?_, h1⟩
  obtain ⟨i0, i1, rest, h0, h1', hrr, hrl, hws, g1, g2, g3⟩ := (C86_accepts b S _).1.mp ⟨r', h1⟩
  obtain ⟨f', -, hf'⟩ := ofNat?_of_le g1
  have hv := (C86_value b S _ i0 i1 rest h0 h1' hrr hrl hws).1 f' hf' g2
  rw [h1] at hv
  obtain ⟨r2, c2, e1, -, -, -, e2, e3, e4⟩ := C51_fast_same_key b S (seedOfWords rest) (UInt8.ofNat (2 * (i1 / 256))) f' (length_seedOfWords rest hrl) (by
      rw [GoodHeight, UInt8.toNat_ofNat_of_lt' (show 2 * (i1 / 256) < 256 by omega)]
      omega)
  rw [e1] at hv
  cases hv
  have q1 : f' = hf := by
    have : f'.toNat = hf.toNat := by rw [← e2, k3, f2]
    cases f' <;> cases hf <;> first | rfl | (exact absurd this (by decide))
  rw [← e3, k2, f1, ← e4, k4, f4, q1] at e1
  exact e1

/-- A wallet of height 4 meets the hypotheses, with address format 0 and with address format 3. -/
example : (∃ o0, XmssFast.new toySha zeroSeed 4 (HashFn.toNat .shake_128) 0 = ok o0) ∧ ∃ o0, XmssFast.new toySha zeroSeed 4 (HashFn.toNat .shake_128) 3 = ok o0 :=
  ⟨(C39_fast_succeeds _ _ _ _ _).mpr ⟨rfl, goodHeight4, by decide⟩, (C39_fast_succeeds _ _ _ _ _).mpr ⟨rfl, goodHeight4, by decide⟩⟩

/-- Words separated by tabs and line breaks: a text that Rust restores. -/
example (b : Rs.Build) (S : Sha256) (s : List Char) (h : uniWords s = (32 :: 512 :: List.replicate 32 7).map fun i => ascii (wordNo i)) :
    ∃ o, rustRestore b S s = .ok o :=
  (C86_accepts b S s).1.mpr ⟨32, 512, List.replicate 32 7, by omega, by omega, by
    intro i hi; rw [(List.mem_replicate.mp hi).2]; omega, List.length_replicate, h, by omega, by omega, by omega⟩

end Qrl.Props
