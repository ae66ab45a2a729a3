import Verif.Model.Misc
import Verif.Spec.Text
import Verif.Proof.Hex

namespace Qrl

open Outcome Spec

/-! ## Facts about the word table -/

/-- Left-aligned 8-byte form: numeric order is then dictionary order. -/
def wordKey (v : Nat) : Nat := v * 256 ^ (7 - v.log2 / 8)

def strictInc : List Nat → Bool
  | [] => true
  | [_] => true
  | a :: b :: l => Nat.blt a b && strictInc (b :: l)

def wordOk (v : Nat) : Bool :=
  Nat.blt v (256 ^ 8) && !(digits256 8 v).isEmpty &&
    (digits256 8 v).all fun c => Nat.ble 97 c.toNat && Nat.ble c.toNat 122

set_option maxRecDepth 100000 in
theorem table_sorted : strictInc (wordBlocks.flatten.map wordKey) = true := by decide +kernel

set_option maxRecDepth 100000 in
theorem table_ok : wordBlocks.flatten.all wordOk = true := by decide +kernel

set_option maxRecDepth 100000 in
theorem table_length : wordBlocks.flatten.length = 4096 := by decide +kernel

theorem wordlist_length : wordlist.length = 4096 := by
  unfold wordlist; rw [List.length_map]; exact table_length

theorem strictInc_pairwise : ∀ l : List Nat, strictInc l = true → l.Pairwise (· < ·)
  | [], _ => List.Pairwise.nil
  | [a], _ => by simp
  | a :: b :: l, h => by
    simp only [strictInc, Bool.and_eq_true, Nat.blt_eq] at h
    have ih := strictInc_pairwise (b :: l) h.2
    rw [List.pairwise_cons]
    refine ⟨?_, ih⟩
    intro x hx
    rw [List.mem_cons] at hx
    rcases hx with rfl | hx
    · exact h.1
    · exact Nat.lt_trans h.1 (List.rel_of_pairwise_cons ih hx)

theorem table_nodup : wordBlocks.flatten.Nodup := by
  have h := strictInc_pairwise _ table_sorted
  rw [List.pairwise_map] at h
  exact h.imp (fun hlt heq => by rw [heq] at hlt; exact Nat.lt_irrefl _ hlt)

def value256 (l : Bytes) : Nat := l.foldl (fun n c => 256 * n + c.toNat) 0

theorem value_digits : ∀ fuel v, v < 256 ^ fuel → value256 (digits256 fuel v) = v
  | 0, v, h => by simp at h; simp [digits256, value256, h]
  | fuel + 1, v, h => by
    unfold digits256
    by_cases hv : v = 0
    · simp [hv, value256]
    · have := value_digits fuel (v / 256) (by rw [Nat.div_lt_iff_lt_mul (by omega)]; omega)
      simp only [hv, if_false, value256, List.foldl_append, List.foldl_cons, List.foldl_nil] at this ⊢
      rw [this]
      simp only [UInt8.toNat_ofNat']
      omega

theorem wordlist_nodup : wordlist.Nodup := by
  unfold wordlist
  have hok := List.all_eq_true.mp table_ok
  rw [List.nodup_iff_pairwise_ne, List.pairwise_map]
  have := table_nodup
  rw [List.nodup_iff_pairwise_ne] at this
  refine List.Pairwise.imp_of_mem ?_ this
  intro a b ha hb hab heq
  apply hab
  have h1 := hok a ha
  have h2 := hok b hb
  simp only [wordOk, Bool.and_eq_true, Nat.blt_eq] at h1 h2
  rw [← value_digits 8 a h1.1.1, ← value_digits 8 b h2.1.1, heq]

theorem wordlist_word (w : Bytes) (h : w ∈ wordlist) :
    w ≠ [] ∧ ∀ c ∈ w, 97 ≤ c.toNat ∧ c.toNat ≤ 122 := by
  simp only [wordlist, List.mem_map] at h
  obtain ⟨v, hv, rfl⟩ := h
  have := List.all_eq_true.mp table_ok v hv
  simp only [wordOk, Bool.and_eq_true, List.all_eq_true, Nat.ble_eq] at this
  refine ⟨?_, this.2⟩
  have h2 := this.1.2
  simpa using h2

/-! ## Lookup -/

theorem buildLookup_eq (ws : List Bytes) : ∀ c m, buildLookup ws c m = (ws.zipIdx c).reverse ++ m := by
  induction ws with
  | nil => intro c m; rfl
  | cons w ws ih => intro c m; simp [buildLookup, ih]

theorem lookup_some_mem {m : List (Bytes × Nat)} {w : Bytes} {i : Nat} (h : m.lookup w = some i) :
    (w, i) ∈ m := by
  induction m with
  | nil => simp at h
  | cons p m ih =>
    obtain ⟨x, j⟩ := p
    rw [List.lookup_cons] at h
    by_cases hw : w == x
    · simp only [hw] at h
      have : w = x := by simpa using hw
      cases h; subst this; simp
    · have hb : (w == x) = false := by simpa using hw
      simp only [hb] at h
      exact List.mem_cons_of_mem _ (ih h)

theorem lookup_none {m : List (Bytes × Nat)} {w : Bytes} (h : m.lookup w = none) :
    ∀ i, (w, i) ∉ m := by
  induction m with
  | nil => simp
  | cons p m ih =>
    obtain ⟨x, j⟩ := p
    intro i
    rw [List.lookup_cons] at h
    by_cases hw : w == x
    · simp [hw] at h
    · have hb : (w == x) = false := by simpa using hw
      simp only [hb] at h
      have : w ≠ x := by simpa using hw
      simp [this, ih h i]

theorem wordLookup_some {w : Bytes} {i : Nat} (h : wordLookup w = some i) : wordlist[i]? = some w := by
  unfold wordLookup at h
  have := lookup_some_mem h
  rw [buildLookup_eq] at this
  simp only [List.append_nil, List.mem_reverse] at this
  have := List.mem_zipIdx_iff_getElem?.mp this
  simpa using this

theorem wordLookup_getElem {w : Bytes} {i : Nat} (h : wordlist[i]? = some w) : wordLookup w = some i := by
  cases e : wordLookup w with
  | none =>
    exfalso
    unfold wordLookup at e
    apply lookup_none e i
    rw [buildLookup_eq]
    simp only [List.append_nil, List.mem_reverse]
    exact List.mem_zipIdx_iff_getElem?.mpr (by simpa using h)
  | some j =>
    have hj := wordLookup_some e
    have hi := h
    obtain ⟨h1, e1⟩ := List.getElem?_eq_some_iff.mp hj
    obtain ⟨h2, e2⟩ := List.getElem?_eq_some_iff.mp hi
    congr 1
    have hp := List.pairwise_iff_getElem.mp (List.nodup_iff_pairwise_ne.mp wordlist_nodup)
    rcases Nat.lt_trichotomy j i with hlt | heq | hlt
    · exact absurd (e1.trans e2.symm) (hp j i h1 h2 hlt)
    · exact heq
    · exact absurd (e2.trans e1.symm) (hp i j h2 h1 hlt)

theorem wordLookup_isSome_iff (w : Bytes) : (wordLookup w).isSome ↔ w ∈ wordlist := by
  constructor
  · intro h
    obtain ⟨i, hi⟩ := Option.isSome_iff_exists.mp h
    exact List.mem_of_getElem? (wordLookup_some hi)
  · intro h
    obtain ⟨i, hi⟩ := List.getElem?_of_mem h
    rw [wordLookup_getElem hi]; rfl

/-! ## Tokenising -/

theorem isSpaceChar_eq (c : UInt8) : isSpaceChar c = isWhite c := by
  revert c; apply u8_forall; decide +kernel

theorem streamWords_eq (s : Bytes) : ∀ cur,
    streamWords cur s = (s.splitOnPPrepend isWhite cur.reverse).filter (· ≠ []) := by
  induction s with
  | nil => intro cur; cases cur <;> simp [streamWords]
  | cons c s ih =>
    intro cur
    unfold streamWords
    rw [isSpaceChar_eq]
    by_cases h : isWhite c
    · rw [List.splitOnPPrepend_cons_pos h]
      have := ih []
      cases cur with
      | nil => simp only [h, if_true, List.isEmpty_nil, this]; simp
      | cons a l => simp only [h, if_true, List.isEmpty_cons, this]; simp
    · have h' : isWhite c = false := by simpa using h
      rw [List.splitOnPPrepend_cons_neg h']
      simp [h', ih]

theorem streamWords_wordsOf (s : Bytes) : streamWords [] s = wordsOf s := by
  rw [streamWords_eq]; simp [wordsOf]

theorem letter_no_white : ∀ c : UInt8, 97 ≤ c.toNat ∧ c.toNat ≤ 122 → isWhite c = false := by
  apply u8_forall; decide +kernel

theorem word_no_white (w : Bytes) (h : w ∈ wordlist) : ∀ c ∈ w, isWhite c = false := by
  intro c hc
  exact letter_no_white c ((wordlist_word w h).2 c hc)

theorem wordsOf_join (ws : List Bytes) (h : ∀ w ∈ ws, w ∈ wordlist) : wordsOf (joinLines 32 ws) = ws := by
  induction ws with
  | nil => simp [joinLines, wordsOf]
  | cons w ws ih =>
    have hw := word_no_white w (h w (by simp))
    have hne := (wordlist_word w (h w (by simp))).1
    cases ws with
    | nil =>
      simp only [joinLines, wordsOf]
      rw [List.splitOnP_eq_singleton hw]; simp [hne]
    | cons x xs =>
      have ih := ih (fun w hw => h w (by simp [hw]))
      simp only [joinLines, wordsOf] at ih ⊢
      rw [List.splitOnP_append_cons_of_forall_mem hw _ (by decide)]
      rw [List.filter_cons, ih]; simp [hne]

theorem count_word (w : Bytes) (h : w ∈ wordlist) : w.count 32 = 0 := by
  rw [List.count_eq_zero]
  intro hc
  have := word_no_white w h 32 hc
  simp [isWhite] at this

theorem count_join (ws : List Bytes) (h : ∀ w ∈ ws, w ∈ wordlist) :
    (joinLines 32 ws).count 32 = ws.length - 1 := by
  induction ws with
  | nil => rfl
  | cons w ws ih =>
    cases ws with
    | nil => simp [joinLines, count_word w (h w (by simp))]
    | cons x xs =>
      have ih := ih (fun w hw => h w (by simp [hw]))
      simp only [joinLines, List.count_append, List.count_cons_self] at ih ⊢
      rw [ih, count_word w (h w (by simp))]; simp

/-! ## Decoding -/

/-- The bytes of pairs of 12-bit groups. -/
def bytesOfGroups : List Nat → Bytes
  | i :: j :: rest =>
    UInt8.ofNat (i / 16) :: UInt8.ofNat (i % 16 * 16 + j / 256) :: UInt8.ofNat (j % 256) :: bytesOfGroups rest
  | _ => []

theorem drain3 (x : Nat) : drainNibbles 3 x = ([UInt8.ofNat (x / 16)], 1, x % 16) := by
  rw [drainNibbles]; simp only [show (3 : Nat) > 2 by omega, dite_true]
  rw [drainNibbles]; simp [Nat.shiftRight_eq_div_pow, Nat.and_two_pow_sub_one_eq_mod x 4]

theorem drain4 (x : Nat) : drainNibbles 4 x = ([UInt8.ofNat (x / 256)], 2, x % 256) := by
  rw [drainNibbles]; simp only [show (4 : Nat) > 2 by omega, dite_true]
  rw [drainNibbles]; simp [Nat.shiftRight_eq_div_pow, Nat.and_two_pow_sub_one_eq_mod x 8]

theorem drain5 (x : Nat) : drainNibbles 5 x =
    ([UInt8.ofNat (x / 4096), UInt8.ofNat (x % 4096 / 16)], 1, x % 16) := by
  rw [drainNibbles]; simp only [show (5 : Nat) > 2 by omega, dite_true]
  have h := drain3 (x &&& (1 <<< (4 * (5 - 2))) - 1)
  simp only [show 5 - 2 = 3 by omega] at h ⊢
  rw [h]
  simp [Nat.shiftRight_eq_div_pow, Nat.and_two_pow_sub_one_eq_mod x 12]

theorem arith_a (i j : Nat) (hj : j < 4096) : (i % 16 * 4096 + j) / 256 = i % 16 * 16 + j / 256 := by omega
theorem arith_b (i j : Nat) : (i % 16 * 4096 + j) % 256 = j % 256 := by omega

theorem mnemonicLoop_step (w1 w2 : Bytes) (i j : Nat) (ws : List Bytes)
    (h1 : wordlist[i]? = some w1) (h2 : wordlist[j]? = some w2) (hi : i < 4096) (hj : j < 4096)
    (c : Nat) (hc : c < 256) :
    mnemonicLoop (w1 :: w2 :: ws) 2 c =
      (mnemonicLoop ws 2 (j % 256)).bind fun rest =>
        ok (UInt8.ofNat c :: UInt8.ofNat (i / 16) :: UInt8.ofNat (i % 16 * 16 + j / 256) :: rest) := by
  simp only [mnemonicLoop, wordLookup_getElem h1, wordLookup_getElem h2]
  simp only [Nat.shiftLeft_eq, show 2 + 3 = 5 from rfl, drain5, show 1 + 3 = 4 from rfl, drain4]
  have e1 : (c * 2 ^ 12 + i) / 4096 = c := by omega
  have e2 : (c * 2 ^ 12 + i) % 4096 / 16 = i / 16 := by omega
  have e3 : (c * 2 ^ 12 + i) % 16 = i % 16 := by omega
  have e4 : (i % 16 * 2 ^ 12 + j) / 256 = i % 16 * 16 + j / 256 := arith_a i j hj
  have e5 : (i % 16 * 2 ^ 12 + j) % 256 = j % 256 := arith_b i j
  rw [e1, e2, e3, e4, e5]
  cases mnemonicLoop ws 2 (j % 256) <;> rfl

theorem mnemonicLoop_step0 (w1 w2 : Bytes) (i j : Nat) (ws : List Bytes)
    (h1 : wordlist[i]? = some w1) (h2 : wordlist[j]? = some w2) (hj : j < 4096) :
    mnemonicLoop (w1 :: w2 :: ws) 0 0 =
      (mnemonicLoop ws 2 (j % 256)).bind fun rest =>
        ok (UInt8.ofNat (i / 16) :: UInt8.ofNat (i % 16 * 16 + j / 256) :: rest) := by
  simp only [mnemonicLoop, wordLookup_getElem h1, wordLookup_getElem h2]
  simp only [Nat.shiftLeft_eq, show 0 + 3 = 3 from rfl, drain3, show 1 + 3 = 4 from rfl, drain4]
  have e1 : (0 * 2 ^ 12 + i) / 16 = i / 16 := by omega
  have e3 : (0 * 2 ^ 12 + i) % 16 = i % 16 := by omega
  have e4 : (i % 16 * 2 ^ 12 + j) / 256 = i % 16 * 16 + j / 256 := arith_a i j hj
  have e5 : (i % 16 * 2 ^ 12 + j) % 256 = j % 256 := arith_b i j
  rw [e1, e3, e4, e5]
  cases mnemonicLoop ws 2 (j % 256) <;> rfl

/-- Indices to words. -/
def wordAt (i : Nat) : Bytes := wordlist.getD i []

theorem getElem?_wordAt {i : Nat} (h : i < 4096) : wordlist[i]? = some (wordAt i) := by
  have : i < wordlist.length := by rw [wordlist_length]; exact h
  simp [wordAt, List.getD_eq_getElem?_getD, List.getElem?_eq_getElem this]

theorem wordAt_mem {i : Nat} (h : i < 4096) : wordAt i ∈ wordlist :=
  List.mem_of_getElem? (getElem?_wordAt h)

theorem mnemonicLoop_pending : ∀ (n : Nat) (is : List Nat), is.length = 2 * n → (∀ i ∈ is, i < 4096) →
    ∀ c, c < 256 → mnemonicLoop (is.map wordAt) 2 c = ok (UInt8.ofNat c :: bytesOfGroups is)
  | 0, is, hl, _, c, hc => by
    have : is = [] := List.length_eq_zero_iff.mp (by omega)
    subst this
    simp [mnemonicLoop, bytesOfGroups, Nat.and_two_pow_sub_one_eq_mod c 8]
    congr 1; omega
  | n + 1, is, hl, hi, c, hc => by
    match is with
    | [] => simp at hl
    | [_] => simp at hl; omega
    | i :: j :: is =>
      have hi' : i < 4096 := hi i (by simp)
      have hj' : j < 4096 := hi j (by simp)
      rw [List.map_cons, List.map_cons,
        mnemonicLoop_step _ _ i j _ (getElem?_wordAt hi') (getElem?_wordAt hj') hi' hj' c hc,
        mnemonicLoop_pending n is (by simp at hl; omega) (fun x hx => hi x (by simp [hx])) (j % 256) (by omega)]
      rfl

theorem mnemonicLoop_pairs (n : Nat) (is : List Nat) (hl : is.length = 2 * n) (hi : ∀ i ∈ is, i < 4096) :
    mnemonicLoop (is.map wordAt) 0 0 = ok (bytesOfGroups is) := by
  match is with
  | [] => simp [mnemonicLoop, bytesOfGroups]
  | [_] => simp at hl; omega
  | i :: j :: is =>
    have hi' : i < 4096 := hi i (by simp)
    have hj' : j < 4096 := hi j (by simp)
    rw [List.map_cons, List.map_cons,
      mnemonicLoop_step0 _ _ i j _ (getElem?_wordAt hi') (getElem?_wordAt hj') hj',
      mnemonicLoop_pending (n - 1) is (by simp at hl; omega) (fun x hx => hi x (by simp [hx])) (j % 256) (by omega)]
    rfl

/-- Decoding of a canonical phrase. -/
theorem mnemonic2bin_join (n : Nat) (is : List Nat) (hn : 0 < n) (hl : is.length = 2 * n)
    (hi : ∀ i ∈ is, i < 4096) :
    mnemonic2bin (joinLines 32 (is.map wordAt)) = ok (bytesOfGroups is) := by
  have hm : ∀ w ∈ is.map wordAt, w ∈ wordlist := by
    intro w hw
    obtain ⟨i, h1, rfl⟩ := List.mem_map.mp hw
    exact wordAt_mem (hi i h1)
  unfold mnemonic2bin
  have hc := count_join _ hm
  simp only [List.length_map] at hc
  simp only [hc, streamWords_wordsOf, wordsOf_join _ hm, mnemonicLoop_pairs n is hl hi]
  have : ¬ ((is.length - 1 + 1) % 2 ≠ 0) := by omega
  simp [this]

/-! ## Encoding -/

theorem groups12_lt (v : Bytes) : ∀ i ∈ groups12 v, i < 4096 := by
  fun_induction groups12 v with
  | case1 a b c rest ih =>
    intro i hi
    have ha := a.toNat_lt
    have hb := b.toNat_lt
    have hc := c.toNat_lt
    simp only [List.mem_cons] at hi
    rcases hi with rfl | rfl | hi
    · omega
    · omega
    · exact ih i hi
  | case2 => simp

theorem bytes_groups : ∀ (n : Nat) (v : Bytes), v.length = 3 * n → bytesOfGroups (groups12 v) = v
  | 0, v, h => by
    have : v = [] := List.length_eq_zero_iff.mp (by omega)
    subst this; rfl
  | n + 1, v, h => by
    match v with
    | a :: b :: c :: v =>
      have ih := bytes_groups n v (by simp at h; omega)
      have ha := a.toNat_lt
      have hb := b.toNat_lt
      have hc := c.toNat_lt
      simp only [groups12, bytesOfGroups, ih]
      have e1 : (a.toNat * 16 + b.toNat / 16) / 16 = a.toNat := by omega
      have e2 : (a.toNat * 16 + b.toNat / 16) % 16 * 16 + (b.toNat % 16 * 256 + c.toNat) / 256 = b.toNat := by omega
      have e3 : (b.toNat % 16 * 256 + c.toNat) % 256 = c.toNat := by omega
      rw [e1, e2, e3]; simp
    | [] => simp at h
    | [_] => simp at h; omega
    | [_, _] => simp at h; omega

theorem groups_bytes : ∀ (n : Nat) (is : List Nat), is.length = 2 * n → (∀ i ∈ is, i < 4096) →
    groups12 (bytesOfGroups is) = is
  | 0, is, hl, _ => by
    have : is = [] := List.length_eq_zero_iff.mp (by omega)
    subst this; rfl
  | n + 1, is, hl, hi => by
    match is with
    | [] => simp at hl
    | [_] => simp at hl; omega
    | i :: j :: is =>
      have hi' : i < 4096 := hi i (by simp)
      have hj' : j < 4096 := hi j (by simp)
      have ih := groups_bytes n is (by simp at hl; omega) (fun x hx => hi x (by simp [hx]))
      simp only [bytesOfGroups, groups12, ih, UInt8.toNat_ofNat']
      congr 1
      · omega
      · congr 1; omega

theorem length_groups12 : ∀ (n : Nat) (v : Bytes), v.length = 3 * n → (groups12 v).length = 2 * n
  | 0, v, h => by
    have : v = [] := List.length_eq_zero_iff.mp (by omega)
    subst this; rfl
  | n + 1, v, h => by
    match v with
    | a :: b :: c :: v =>
      have ih := length_groups12 n v (by simp at h; omega)
      simp [groups12, ih]; omega
    | [] => simp at h
    | [_] => simp at h; omega
    | [_, _] => simp at h; omega

theorem length_bytesOfGroups : ∀ (n : Nat) (is : List Nat), is.length = 2 * n →
    (bytesOfGroups is).length = 3 * n
  | 0, is, h => by
    have : is = [] := List.length_eq_zero_iff.mp (by omega)
    subst this; rfl
  | n + 1, is, h => by
    match is with
    | [] => simp at h
    | [_] => simp at h; omega
    | i :: j :: is =>
      have ih := length_bytesOfGroups n is (by simp at h; omega)
      simp [bytesOfGroups, ih]; omega

/-- Words each preceded by a separator. -/
def sepWords : List Nat → Bytes
  | [] => []
  | i :: is => 32 :: (wordAt i ++ sepWords is)

theorem rd_some {α : Type} {l : List α} {i : Nat} {x : α} (h : l[i]? = some x) : rd l i = ok x := by
  simp [rd, h]

theorem loop_even (pre : Bytes) (a b c : UInt8) (v : Bytes) (sep : Bytes) (k : Nat) (hp : pre.length = 3 * k) :
    bin2mnemonicLoop (pre ++ a :: b :: c :: v) (6 * k) sep =
      (bin2mnemonicLoop ((pre ++ [a, b, c]) ++ v) (6 * (k + 1)) [32]).bind fun rest =>
        ok (sep ++ wordAt (a.toNat * 16 + b.toNat / 16) ++
          ([32] ++ wordAt (b.toNat % 16 * 256 + c.toNat) ++ rest)) := by
  have ha := a.toNat_lt
  have hb := b.toNat_lt
  have hc := c.toNat_lt
  have g0 : (pre ++ a :: b :: c :: v)[3 * k]? = some a := by simp [← hp]
  have g1 : (pre ++ a :: b :: c :: v)[3 * k + 1]? = some b := by
    rw [List.getElem?_append_right (by omega)]; simp [hp]
  have g2 : (pre ++ a :: b :: c :: v)[3 * k + 1 + 1]? = some c := by
    rw [List.getElem?_append_right (by omega)]; simp [hp, show 3 * k + 1 + 1 - 3 * k = 2 by omega]
  have i1 : mnemonicIdx (pre ++ a :: b :: c :: v) (6 * k) = ok (a.toNat * 16 + b.toNat / 16) := by
    have e : (6 * k) >>> 1 = 3 * k := by rw [Nat.shiftRight_eq_div_pow]; omega
    have e2 : 6 * k % 2 = 0 := by omega
    have e3 : 3 * k + 1 < (pre ++ a :: b :: c :: v).length := by simp; omega
    simp only [mnemonicIdx, e, rd_some g0, rd_some g1, e2, e3, if_true, ok_bind]
    simp [Nat.shiftLeft_eq, Nat.shiftRight_eq_div_pow]
  have i2 : mnemonicIdx (pre ++ a :: b :: c :: v) (6 * k + 3) = ok (b.toNat % 16 * 256 + c.toNat) := by
    have e : (6 * k + 3) >>> 1 = 3 * k + 1 := by rw [Nat.shiftRight_eq_div_pow]; omega
    have e2 : (6 * k + 3) % 2 = 1 := by omega
    have e3 : 3 * k + 1 + 1 < (pre ++ a :: b :: c :: v).length := by simp; omega
    simp only [mnemonicIdx, e, rd_some g2, rd_some g1, e2, e3, if_true, ok_bind]
    simp [Nat.shiftLeft_eq, Nat.and_two_pow_sub_one_eq_mod b.toNat 4]
  rw [bin2mnemonicLoop]
  have h1 : 6 * k < (pre ++ a :: b :: c :: v).length * 2 := by simp; omega
  simp only [h1, dite_true, i1, ok_bind]
  rw [rd_some (getElem?_wordAt (i := a.toNat * 16 + b.toNat / 16) (by omega)), ok_bind, bin2mnemonicLoop]
  have h2 : 6 * k + 3 < (pre ++ a :: b :: c :: v).length * 2 := by simp; omega
  simp only [h2, dite_true, i2, ok_bind]
  rw [rd_some (getElem?_wordAt (i := b.toNat % 16 * 256 + c.toNat) (by omega)), ok_bind]
  have e : 6 * k + 3 + 3 = 6 * (k + 1) := by omega
  rw [e]
  simp only [List.append_assoc, List.cons_append, List.nil_append]
  cases bin2mnemonicLoop (pre ++ a :: b :: c :: v) (6 * (k + 1)) [32] <;> rfl

theorem loop_sep : ∀ (n : Nat) (v pre : Bytes) (k : Nat), v.length = 3 * n → pre.length = 3 * k →
    bin2mnemonicLoop (pre ++ v) (6 * k) [32] = ok (sepWords (groups12 v))
  | 0, v, pre, k, hv, hp => by
    have : v = [] := List.length_eq_zero_iff.mp (by omega)
    subst this
    rw [bin2mnemonicLoop]
    have : ¬ (6 * k < (pre ++ []).length * 2) := by simp; omega
    simp [groups12, sepWords]; omega
  | n + 1, v, pre, k, hv, hp => by
    match v with
    | a :: b :: c :: v =>
      rw [loop_even pre a b c v [32] k hp, loop_sep n v (pre ++ [a, b, c]) (k + 1) (by simp at hv; omega) (by simp; omega)]
      simp [Outcome.bind, groups12, sepWords]
    | [] => simp at hv
    | [_] => simp at hv; omega
    | [_, _] => simp at hv; omega

theorem join_sepWords (i : Nat) (is : List Nat) :
    joinLines 32 ((i :: is).map wordAt) = wordAt i ++ sepWords is := by
  induction is generalizing i with
  | nil => simp [joinLines, sepWords]
  | cons j is ih =>
    have := ih j
    simp only [List.map_cons, joinLines] at this ⊢
    simp [sepWords, this]

theorem bin2mnemonic_eq (n : Nat) (v : Bytes) (hv : v.length = 3 * n) :
    bin2mnemonic v = ok (joinLines 32 ((groups12 v).map wordAt)) := by
  unfold bin2mnemonic
  have : ¬ (v.length % 3 ≠ 0) := by omega
  simp only [this, if_false]
  match v, n with
  | [], _ => rw [bin2mnemonicLoop]; simp [groups12, joinLines]
  | a :: b :: c :: v, n + 1 =>
    have h := loop_even [] a b c v [] 0 rfl
    simp only [List.nil_append, Nat.mul_zero] at h
    rw [h]
    have h2 := loop_sep n v [a, b, c] 1 (by simp at hv; omega) rfl
    simp only [Nat.zero_add]
    rw [h2]
    simp only [groups12]
    rw [join_sepWords]
    simp [Outcome.bind, sepWords]
  | [_], _ => simp at hv; omega
  | [_, _], _ => simp at hv; omega
  | _ :: _ :: _ :: _, 0 => simp at hv

/-- Acceptance: some word is unknown or not. -/
theorem mnemonicLoop_ok_iff (ws : List Bytes) : ∀ b c,
    ((∃ v, mnemonicLoop ws b c = ok v) ↔ ∀ w ∈ ws, w ∈ wordlist) ∧
    ((∃ v, mnemonicLoop ws b c = ok v) ∨ mnemonicLoop ws b c = .throw .invalidArgument) := by
  induction ws with
  | nil => intro b c; by_cases h : b > 0 <;> simp [mnemonicLoop, h]
  | cons w ws ih =>
    intro b c
    unfold mnemonicLoop
    cases e : wordLookup w with
    | none =>
      have : w ∉ wordlist := by
        intro h; have := (wordLookup_isSome_iff w).mpr h; simp [e] at this
      simp [this]
    | some i =>
      have hw : w ∈ wordlist := (wordLookup_isSome_iff w).mp (by simp [e])
      generalize hd : drainNibbles (b + 3) ((c <<< 12) + i) = d
      obtain ⟨out, b', c'⟩ := d
      have ih := ih b' c'
      simp only [hd]
      constructor
      · constructor
        · rintro ⟨v, hv⟩
          rw [bind_eq_ok] at hv
          obtain ⟨r, hr, _⟩ := hv
          have := ih.1.mp ⟨r, hr⟩
          simpa [hw] using this
        · intro h
          obtain ⟨r, hr⟩ := ih.1.mpr (fun w hw => h w (by simp [hw]))
          exact ⟨out ++ r, by rw [hr]; rfl⟩
      · rcases ih.2 with ⟨r, hr⟩ | hr
        · left; exact ⟨out ++ r, by rw [hr]; rfl⟩
        · right; rw [hr]; rfl

end Qrl
