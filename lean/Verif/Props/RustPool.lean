import Verif.Spec.RustPool
import Verif.Proof.RustMisc
import Verif.Proof.RustTall
import Verif.Props.RustKeys
import Verif.Props.Pool
/-!
# C56: the key pool of the Rust port
-/

namespace Qrl.Props

open Qrl.Spec

theorem utf8_digits_inj {m n : Nat} (h : utf8 (Nat.toDigits 10 m) = utf8 (Nat.toDigits 10 n)) : m = n := by
  have key : ∀ k : Nat, ∃ t : Bytes, (∀ x ∈ t, x < 128) ∧ Nat.toDigits 10 k = Rs.ofCodes t := by
    intro k
    apply Rs.small_text
    intro c hc
    have := Nat.isDigit_of_mem_toDigits (by omega) (by omega) hc
    rw [Char.isDigit, Bool.and_eq_true, decide_eq_true_eq, decide_eq_true_eq, ge_iff_le, UInt32.le_iff_toNat_le, UInt32.le_iff_toNat_le] at this
    have h2 := this.2
    show c.val.toNat < 128
    have : ('9' : Char).val.toNat = 57 := rfl
    omega
  obtain ⟨t, ht, et⟩ := key m
  obtain ⟨u, hu, eu⟩ := key n
  have h' : Rs.str2bin (Rs.ofCodes t) = Rs.str2bin (Rs.ofCodes u) := by rw [← et, ← eu]; exact h
  rw [Rs.str2bin_ofCodes t ht, Rs.str2bin_ofCodes u hu] at h'
  have e : Nat.toDigits 10 m = Nat.toDigits 10 n := by rw [et, eu, h']
  have := congrArg (fun l => Nat.ofDigitChars 10 l 0) e
  simpa only [Nat.ofDigitChars_toDigits (b := 10) (by omega) (by omega)] using this

theorem rs_poolText (base : Bytes) (index : Nat) :
    Rs.str2bin (Rs.bin2hstr base 0 ++ Rs.decimal (index + 1)) = rustPoolText base index := by
  rw [Rs.bin2hstr_eq, Rs.str2bin, List.flatMap_append, rustPoolText]
  congr 1
  have := Rs.str2bin_ofCodes (bin2hstr base 0) (Rs.bin2hstr_small base 0)
  rw [Rs.str2bin] at this
  rw [this, C01_hex_encoding]

theorem length_rustPoolSeed (S : Sha256) (base : Bytes) (i : Nat) : (rustPoolSeed S base i).length = 48 := by
  have := S.length_hash (rustPoolText base i)
  rw [rustPoolSeed, List.length_append, List.length_take]; omega

theorem rs_prepareTree (b : Rs.Build) (S : Sha256) (p : Rs.XMSSPool) (i : Nat) (hi : i + 1 < 2 ^ 64) :
    p.prepareTree b S i = Rs.XMSSFast.new b S (rustPoolSeed S p.baseSeed i) p.height .shake_128 16 := by
  have := S.length_hash (rustPoolText p.baseSeed i)
  rw [Rs.XMSSPool.prepareTree, Rs.usize.eq_def, if_pos hi, Rs.Res.ok_bind]
  dsimp only
  rw [rs_poolText, Rs.sha2_256, Rs.slice, if_pos (by omega), Rs.Res.ok_bind, List.drop_zero]
  rfl

/-- The heights for which making a tree never panics. -/
def PoolHeight (b : Rs.Build) (height : UInt8) : Prop := height.toNat ≤ 30 ∨ height.toNat % 2 = 1 ∨ b = .release

/-- The heights for which making a tree succeeds. -/
def TreeHeight (b : Rs.Build) (height : UInt8) : Prop := 4 ≤ height.toNat ∧ height.toNat % 2 = 0 ∧ (height.toNat ≤ 30 ∨ b = .release)

theorem new_succeeds {b : Rs.Build} {height : UInt8} (hh : TreeHeight b height) (S : Sha256) (base : Bytes) (i : Nat) :
    ∃ o, Rs.XMSSFast.new b S (rustPoolSeed S base i) height .shake_128 16 = .ok o := by
  obtain ⟨h4, he, hor⟩ := hh
  by_cases h30 : height.toNat ≤ 30
  · obtain ⟨o, _, h, _⟩ := C51_fast_same_key b S (rustPoolSeed S base i) height .shake_128 (length_rustPoolSeed S base i) ⟨h4, h30, he⟩
    exact ⟨o, h⟩
  · rcases hor with h | rfl
    · exact absurd h h30
    · obtain ⟨st, _, e⟩ := Rs.fast_new_tall (S := S) (rustPoolSeed S base i) height .shake_128 (w := 16) (by decide)
        (length_rustPoolSeed S base i) (by omega) he
      exact ⟨_, e⟩

theorem new_no_panic (b : Rs.Build) (S : Sha256) (base : Bytes) (height : UInt8) (hh : PoolHeight b height) (i : Nat) :
    ∃ r, Rs.XMSSFast.new b S (rustPoolSeed S base i) height .shake_128 16 = asRes r := by
  by_cases hg : TreeHeight b height
  · obtain ⟨o, h⟩ := new_succeeds hg S base i
    exact ⟨.ok o, h⟩
  · refine ⟨.error .invalidArgument, (C51_new_refuses b S _ height .shake_128 16 ?_).1⟩
    by_cases h4 : 4 ≤ height.toNat
    · by_cases he : height.toNat % 2 = 0
      · refine absurd ⟨h4, he, ?_⟩ hg
        rcases hh with h | h | h
        · exact Or.inl h
        · omega
        · exact Or.inr h
      · exact Or.inr (Or.inr (by omega))
    · exact Or.inr (Or.inl (by omega))

/-- The cache holds the trees of the next `len ≤ mx` indices. -/
structure PoolOk (b : Rs.Build) (S : Sha256) (base : Bytes) (height : UInt8) (mx cur : Nat) (p : Rs.XMSSPool) : Prop where
  seed : p.baseSeed = base
  hei : p.height = height
  hmax : p.maxCacheSize = mx
  hcur : p.currentIndex = cur
  len : p.cache.length ≤ mx
  trees : p.cache.map asRes = (List.range' cur p.cache.length).map fun i => Rs.XMSSFast.new b S (rustPoolSeed S base i) height .shake_128 16

theorem fillLoop_ok {b : Rs.Build} {S : Sha256} {base : Bytes} {height : UInt8} {mx cur : Nat} (hh : PoolHeight b height)
    (hb : cur + mx < 2 ^ 64) (k : Nat) : ∀ p, PoolOk b S base height mx cur p → p.cache.length + k ≤ mx →
    ∃ p', p.fillLoop b S (cur + p.cache.length) k = .ok p' ∧ PoolOk b S base height mx cur p' ∧
      p'.cache.length = p.cache.length + k := by
  induction k with
  | zero => intro p hp _; exact ⟨p, by rw [Rs.XMSSPool.fillLoop], hp, rfl⟩
  | succ k ih =>
    intro p hp hk
    have hpt := rs_prepareTree b S p (cur + p.cache.length) (by omega)
    rw [hp.seed, hp.hei] at hpt
    rw [Rs.XMSSPool.fillLoop, hpt]
    obtain ⟨r, hr⟩ := new_no_panic b S base height hh (cur + p.cache.length)
    have step : ∀ r', asRes r' = Rs.XMSSFast.new b S (rustPoolSeed S base (cur + p.cache.length)) height .shake_128 16 →
        PoolOk b S base height mx cur { p with cache := p.cache ++ [r'] } := by
      intro r' hr'
      refine ⟨hp.seed, hp.hei, hp.hmax, hp.hcur, ?_, ?_⟩
      · show (p.cache ++ [r']).length ≤ mx
        rw [List.length_append, List.length_singleton]; omega
      · show (p.cache ++ [r']).map asRes = (List.range' cur (p.cache ++ [r']).length).map _
        rw [List.map_append, hp.trees, List.length_append, List.length_singleton, List.range'_concat, List.map_append,
          List.map_singleton, hr', Nat.one_mul, List.map_singleton]
    have fin : ∀ r', asRes r' = Rs.XMSSFast.new b S (rustPoolSeed S base (cur + p.cache.length)) height .shake_128 16 →
        ∃ p', Rs.XMSSPool.fillLoop b S { p with cache := p.cache ++ [r'] } (cur + p.cache.length + 1) k = .ok p' ∧
          PoolOk b S base height mx cur p' ∧ p'.cache.length = p.cache.length + (k + 1) := by
      intro r' hr'
      have hl : (p.cache ++ [r']).length = p.cache.length + 1 := by rw [List.length_append, List.length_singleton]
      obtain ⟨p', e1, e2, e3⟩ := ih { p with cache := p.cache ++ [r'] } (step r' hr') (by
        show (p.cache ++ [r']).length + k ≤ mx
        omega)
      refine ⟨p', ?_, e2, ?_⟩
      · rw [← e1]
        show _ = Rs.XMSSPool.fillLoop b S _ (cur + (p.cache ++ [r']).length) k
        rw [hl]; rfl
      · rw [e3]
        show (p.cache ++ [r']).length + k = _
        omega
    cases r with
    | ok t => rw [hr]; exact fin (.ok t) hr.symm
    | error e => rw [hr]; exact fin (.error e) hr.symm

theorem fillCache_ok {b : Rs.Build} {S : Sha256} {base : Bytes} {height : UInt8} {mx cur : Nat} (hh : PoolHeight b height)
    (hb : cur + mx < 2 ^ 64) (p : Rs.XMSSPool) (hp : PoolOk b S base height mx cur p) :
    ∃ p', p.fillCache b S = .ok p' ∧ PoolOk b S base height mx cur p' ∧ p'.cache.length = mx := by
  have hl := hp.len
  obtain ⟨p', e1, e2, e3⟩ := fillLoop_ok hh hb (mx - p.cache.length) p hp (by omega)
  refine ⟨p', ?_, e2, by omega⟩
  rw [Rs.XMSSPool.fillCache, Rs.usize.eq_def, Rs.usize.eq_def, hp.hcur, hp.hmax, if_pos (by omega), if_pos (by omega), Rs.Res.ok_bind,
    Rs.Res.ok_bind, ← e1]
  congr 1
  omega

theorem poolNew_ok {b : Rs.Build} {S : Sha256} {base : Bytes} {height : UInt8} {start mx : Nat} (hh : PoolHeight b height)
    (hb : start + mx < 2 ^ 64) :
    ∃ p, Rs.XMSSPool.new b S base height start mx = .ok p ∧ PoolOk b S base height mx start p ∧ p.cache.length = mx :=
  fillCache_ok hh hb _ ⟨rfl, rfl, rfl, rfl, Nat.zero_le _, rfl⟩

/-- One call: the answer for the current index, the index one further. -/
theorem getNext_ok {b : Rs.Build} {S : Sha256} {base : Bytes} {height : UInt8} {mx cur : Nat} (hh : PoolHeight b height)
    (hb : cur + 1 + mx < 2 ^ 64) (p : Rs.XMSSPool) (hp : PoolOk b S base height mx cur p) :
    ∃ p', PoolOk b S base height mx (cur + 1) p' ∧
      ((∃ t, Rs.XMSSFast.new b S (rustPoolSeed S base cur) height .shake_128 16 = .ok t ∧ p.getNextTree b S = .ret t p' ∧
          p'.cache.length = mx) ∨
       (∃ e, Rs.XMSSFast.new b S (rustPoolSeed S base cur) height .shake_128 16 = .err e ∧ p.getNextTree b S = .fail e p')) := by
  have hu : Rs.usize b (p.currentIndex + 1) = .ok (cur + 1) := by rw [Rs.usize.eq_def, hp.hcur, if_pos (by omega)]
  have hl := hp.len
  have ht := hp.trees
  cases hc : p.cache with
  | nil =>
    obtain ⟨r, hr⟩ := new_no_panic b S base height hh cur
    have hq : PoolOk b S base height mx (cur + 1) { p with currentIndex := cur + 1 } :=
      ⟨hp.seed, hp.hei, hp.hmax, rfl, hp.len, by show p.cache.map asRes = (List.range' _ p.cache.length).map _; rw [hc]; rfl⟩
    obtain ⟨p', e1, e2, e3⟩ := fillCache_ok hh hb _ hq
    rw [hc] at e1
    refine ⟨p', e2, ?_⟩
    have hpt := rs_prepareTree b S p cur (by omega)
    rw [hp.seed, hp.hei] at hpt
    cases r with
    | ok t =>
      refine Or.inl ⟨t, hr, ?_, e3⟩
      rw [Rs.XMSSPool.getNextTree, hc]
      dsimp only
      rw [hu, Rs.Res.ok_bind, hp.hcur, hpt, hr]
      simp only [asRes, e1]
    | error e =>
      refine Or.inr ⟨e, hr, ?_⟩
      rw [Rs.XMSSPool.getNextTree, hc]
      dsimp only
      rw [hu, Rs.Res.ok_bind, hp.hcur, hpt, hr]
      simp only [asRes, e1]
  | cons r rest =>
    rw [hc, List.map_cons, List.length_cons, List.range'_succ, List.map_cons, List.cons.injEq] at ht
    rw [hc, List.length_cons] at hl
    have hq : PoolOk b S base height mx (cur + 1) { p with currentIndex := cur + 1, cache := rest } :=
      ⟨hp.seed, hp.hei, hp.hmax, rfl, by show rest.length ≤ mx; omega, ht.2⟩
    cases r with
    | ok t =>
      obtain ⟨p', e1, e2, e3⟩ := fillCache_ok hh hb _ hq
      refine ⟨p', e2, Or.inl ⟨t, ht.1.symm, ?_, e3⟩⟩
      rw [Rs.XMSSPool.getNextTree, hc]
      dsimp only
      rw [hu]
      dsimp only
      rw [e1]
    | error e =>
      refine ⟨_, hq, Or.inr ⟨e, ht.1.symm, ?_⟩⟩
      rw [Rs.XMSSPool.getNextTree, hc]
      dsimp only
      rw [hu]

theorem history_ok {b : Rs.Build} {S : Sha256} {base : Bytes} {height : UInt8} {mx : Nat} (hh : PoolHeight b height) (n : Nat) :
    ∀ cur p, cur + n + mx < 2 ^ 64 → PoolOk b S base height mx cur p →
    ∃ answers p', poolHistory b S n p = .ok (answers, p') ∧ PoolOk b S base height mx (cur + n) p' ∧
      answers.map asRes = (List.range' cur n).map (fun i => Rs.XMSSFast.new b S (rustPoolSeed S base i) height .shake_128 16) ∧
      (TreeHeight b height → p.cache.length = mx → p'.cache.length = mx) := by
  induction n with
  | zero => intro cur p _ hp; exact ⟨[], p, rfl, hp, rfl, fun _ h => h⟩
  | succ n ih =>
    intro cur p hb hp
    obtain ⟨p1, h1, hor⟩ := getNext_ok hh (by omega) p hp
    obtain ⟨as, p2, e1, e2, e3, e4⟩ := ih (cur + 1) p1 (by omega) h1
    rw [show cur + 1 + n = cur + (n + 1) by omega] at e2
    rcases hor with ⟨t, k1, k2, k3⟩ | ⟨e, k1, k2⟩
    · refine ⟨.ok t :: as, p2, ?_, e2, ?_, fun hg _ => e4 hg k3⟩
      · rw [poolHistory, k2]; dsimp only; rw [e1]; rfl
      · rw [List.map_cons, e3, List.range'_succ, List.map_cons, k1]; rfl
    · refine ⟨.error e :: as, p2, ?_, e2, ?_, fun hg _ => ?_⟩
      · rw [poolHistory, k2]; dsimp only; rw [e1]; rfl
      · rw [List.map_cons, e3, List.range'_succ, List.map_cons, k1]; rfl
      · obtain ⟨o, h⟩ := new_succeeds hg S base cur
        rw [h] at k1; cases k1

/-- C56. Whatever the cache size, the answers of a pool are, call after call, the outcomes of making the trees of the indices
from the starting index on: none is skipped, repeated or handed out at the wrong place, and no call panics. The reported index
is the starting index plus the number of calls. -/
theorem C56_history (b : Rs.Build) (S : Sha256) (base : Bytes) (height : UInt8) (start mx n : Nat)
    (hh : height.toNat ≤ 30 ∨ height.toNat % 2 = 1 ∨ b = .release) (hb : start + n + mx < 2 ^ 64) :
    ∃ p answers p', Rs.XMSSPool.new b S base height start mx = .ok p ∧ p.getCurrentIndex = start ∧
      poolHistory b S n p = .ok (answers, p') ∧ p'.getCurrentIndex = start + n ∧
      answers.map asRes =
        (List.range n).map fun i => Rs.XMSSFast.new b S (rustPoolSeed S base (start + i)) height .shake_128 16 := by
  obtain ⟨p, e1, e2, _⟩ := poolNew_ok (b := b) (S := S) (base := base) (height := height) (start := start) (mx := mx) hh (by omega)
  obtain ⟨as, p', k1, k2, k3, _⟩ := history_ok hh n start p hb e2
  refine ⟨p, as, p', e1, e2.hcur, k1, k2.hcur, ?_⟩
  rw [k3, List.range'_eq_map_range, List.map_map]
  rfl

/-- C56. For the heights 4, 6, …, 30, and without overflow checks for all even heights from 4 on, every answer is a tree, and the pool reports one available at all times exactly if the
cache size is not 0. -/
theorem C56_available (b : Rs.Build) (S : Sha256) (base : Bytes) (height : UInt8) (start mx n : Nat)
    (h4 : 4 ≤ height.toNat) (he : height.toNat % 2 = 0) (hor : height.toNat ≤ 30 ∨ b = .release)
    (hb : start + n + mx < 2 ^ 64) (p p' : Rs.XMSSPool) (answers : List (Except Rs.Err Rs.XMSSFast))
    (hp : Rs.XMSSPool.new b S base height start mx = .ok p) (hr : poolHistory b S n p = .ok (answers, p')) :
    (∀ a ∈ answers, ∃ t, a = .ok t) ∧ (p'.isAvailable = true ↔ 0 < mx) := by
  have hh : TreeHeight b height := ⟨h4, he, hor⟩
  have hh' : PoolHeight b height := by
    rcases hor with h | h
    · exact Or.inl h
    · exact Or.inr (Or.inr h)
  obtain ⟨q, e1, e2, e3⟩ := poolNew_ok (b := b) (S := S) (base := base) (height := height) (start := start) (mx := mx) hh' (by omega)
  rw [hp] at e1; cases e1
  obtain ⟨as, q', k1, k2, k3, k4⟩ := history_ok hh' n start p hb e2
  rw [hr] at k1; cases k1
  constructor
  · intro a ha
    have : asRes a ∈ answers.map asRes := List.mem_map_of_mem ha
    rw [k3] at this
    obtain ⟨i, _, hi⟩ := List.mem_map.mp this
    obtain ⟨o, h⟩ := new_succeeds hh S base i
    rw [h] at hi
    cases a with
    | ok t => exact ⟨t, rfl⟩
    | error e => cases hi
  · have := k4 hh e3
    rw [Rs.XMSSPool.isAvailable]
    cases hc : p'.cache with
    | nil => rw [hc] at this; simp at this; simp; omega
    | cons _ _ => rw [hc] at this; simp at this; simp; omega

/-- C56. For any other height the pool is made without complaint; each call returns `Err` and uses up an index. -/
theorem C56_bad_height (b : Rs.Build) (S : Sha256) (base : Bytes) (height : UInt8) (start mx n : Nat)
    (hh : height.toNat < 4 ∨ height.toNat % 2 = 1) (hb : start + n + mx < 2 ^ 64) :
    ∃ p p', Rs.XMSSPool.new b S base height start mx = .ok p ∧
      poolHistory b S n p = .ok (List.replicate n (.error .invalidArgument), p') ∧ p'.getCurrentIndex = start + n := by
  obtain ⟨p, as, p', e1, _, e2, e3, e4⟩ := C56_history b S base height start mx n
    (by rcases hh with h | h; exact Or.inl (by omega); exact Or.inr (Or.inl h)) hb
  refine ⟨p, p', e1, ?_, e3⟩
  have : as = List.replicate n (.error .invalidArgument) := by
    apply List.eq_replicate_iff.mpr
    constructor
    · have := congrArg List.length e4; simpa using this
    · intro a ha
      have : asRes a ∈ as.map asRes := List.mem_map_of_mem ha
      rw [e4] at this
      obtain ⟨i, _, hi⟩ := List.mem_map.mp this
      rw [(C51_new_refuses b S _ height .shake_128 16 (Or.inr hh)).1] at hi
      cases a with
      | ok t => cases hi
      | error e => cases hi; rfl
  rw [e2, this]

/-- C56. An even height from 32 on, in a build with overflow checks: the first tree that is made panics, which is in the
constructor if the cache size is positive, and otherwise in `get_next_tree`. -/
theorem C56_tall_panics (S : Sha256) (base : Bytes) (height : UInt8) (start mx : Nat) (h32 : 32 ≤ height.toNat)
    (he : height.toNat % 2 = 0) (hb : start + mx < 2 ^ 64) :
    (0 < mx → Rs.XMSSPool.new .debug S base height start mx = .panic) ∧
    (mx = 0 → ∃ p, Rs.XMSSPool.new .debug S base height start mx = .ok p ∧ p.getNextTree .debug S = .panic) := by
  have hprep : ∀ (p : Rs.XMSSPool) (i : Nat), p.height = height → p.prepareTree .debug S i = .panic := by
    intro p i hp
    rw [Rs.XMSSPool.prepareTree]
    by_cases hi : i + 1 < 2 ^ 64
    · rw [Rs.usize, if_pos hi]
      simp only [Rs.Res.ok_bind]
      have hlen : (Rs.sha2_256 S (Rs.str2bin (Rs.bin2hstr p.baseSeed 0 ++ Rs.decimal (i + 1)))).length = 32 := S.length_hash _
      rw [Rs.slice, if_pos (by omega), Rs.Res.ok_bind, hp]
      refine (C51_tall_panics S _ height .shake_128 16 ?_ h32 he).1
      rw [List.length_append, List.length_take, List.length_drop, hlen]
      rfl
    · rw [Rs.usize, if_neg hi]; rfl
  constructor
  · intro hmx
    obtain ⟨k, rfl⟩ : ∃ k, mx = k + 1 := ⟨mx - 1, by omega⟩
    rw [Rs.XMSSPool.new, Rs.XMSSPool.fillCache]
    dsimp only
    rw [List.length_nil, Nat.add_zero, Rs.usize, if_pos (by omega), Rs.Res.ok_bind, Rs.usize, if_pos hb, Rs.Res.ok_bind,
      Nat.add_sub_cancel_left, Rs.XMSSPool.fillLoop, hprep _ _ rfl]
  · rintro rfl
    refine ⟨{ baseSeed := base, height := height, currentIndex := start, maxCacheSize := 0, cache := [] }, ?_, ?_⟩
    · rw [Rs.XMSSPool.new, Rs.XMSSPool.fillCache]
      dsimp only
      rw [List.length_nil, Nat.add_zero, Rs.usize, if_pos (by omega), Rs.Res.ok_bind, Rs.Res.ok_bind, Nat.sub_self,
        Rs.XMSSPool.fillLoop]
    · rw [Rs.XMSSPool.getNextTree]
      dsimp only
      rw [hprep _ _ rfl]

/-- C56. Pools whose base seeds have the same length hash different texts for different (base seed, index). -/
theorem C56_texts_distinct (base base' : Bytes) (i i' : Nat) (hl : base.length = base'.length)
    (h : rustPoolText base i = rustPoolText base' i') : base = base' ∧ i = i' := by
  have len : ∀ v : Bytes, (hexOf v).length = 2 * v.length := by
    intro v
    induction v with
    | nil => rfl
    | cons x v ih => rw [hexOf, List.flatMap_cons, List.length_append, List.length_cons]; rw [hexOf] at ih; rw [ih]; simp; omega
  obtain ⟨h1, h2⟩ := List.append_inj h (by rw [len, len, hl])
  constructor
  · have := (C01_hex_roundtrip base).symm
    rw [C01_hex_encoding, h1, ← C01_hex_encoding, C01_hex_roundtrip] at this
    exact Outcome.ok.inj this
  · have := utf8_digits_inj h2; omega

/-- C56. So two trees of such pools share their seed only if two different texts share their SHA-256 digest. -/
theorem C56_seeds_distinct (S : Sha256) (base base' : Bytes) (i i' : Nat) (hl : base.length = base'.length)
    (hne : base ≠ base' ∨ i ≠ i') (h : rustPoolSeed S base i = rustPoolSeed S base' i') :
    rustPoolText base i ≠ rustPoolText base' i' ∧ S.hash (rustPoolText base i) = S.hash (rustPoolText base' i') := by
  refine ⟨fun ht => ?_, (List.append_inj h (by rw [S.length_hash, S.length_hash])).1⟩
  have := C56_texts_distinct base base' i i' hl ht
  rcases hne with hne | hne
  · exact hne this.1
  · exact hne this.2

/-- C56. **Base seeds of different lengths clash**: the pool of base seed `12` at index 3410 and the pool of base seed
`12 34` at index 10 hand out the same key, for every SHA-256. -/
theorem C56_base_clash_refuted (S : Sha256) : rustPoolSeed S [0x12] 3410 = rustPoolSeed S [0x12, 0x34] 10 := by
  have : rustPoolText [0x12] 3410 = rustPoolText [0x12, 0x34] 10 := by decide +kernel
  rw [rustPoolSeed, rustPoolSeed, this]

/-- C56. **The last 16 seed bytes repeat the first 16.** -/
theorem C56_seed_repeats_refuted (S : Sha256) (base : Bytes) (i : Nat) :
    (rustPoolSeed S base i).length = 48 ∧ (rustPoolSeed S base i).drop 32 = (rustPoolSeed S base i).take 16 := by
  refine ⟨length_rustPoolSeed S base i, ?_⟩
  have := S.length_hash (rustPoolText base i)
  rw [rustPoolSeed, List.drop_append, List.drop_eq_nil_of_le (by omega), this, List.take_append_of_le_length (by omega)]
  simp

/-- C56. **Not the keys of the C++ pool**: for the base seed of 48 zero bytes the C++ pool's first tree has another seed, whatever
SHA-256 is. -/
theorem C56_cpp_differs_refuted (S : Sha256) (i : Nat) :
    rustPoolSeed S (List.replicate 48 0) i ≠ shake256 48 (treeSeedInput (List.replicate 48 0) 0) := by
  intro h
  have h1 := (C56_seed_repeats_refuted S (List.replicate 48 0) i).2
  rw [h] at h1
  revert h1
  decide +kernel

/-- A pool with two cached trees of height 4: five calls give five trees. -/
example : ∃ p answers p', Rs.XMSSPool.new .debug toySha (List.replicate 48 7) 4 10 2 = .ok p ∧
    poolHistory .debug toySha 5 p = .ok (answers, p') ∧ p'.getCurrentIndex = 15 ∧ answers.length = 5 := by
  obtain ⟨p, as, p', h1, _, h2, h3, h4⟩ := C56_history .debug toySha (List.replicate 48 7) 4 10 2 5 (by decide) (by omega)
  refine ⟨p, as, p', h1, h2, h3, ?_⟩
  have := congrArg List.length h4
  simpa using this

/-- The same with height 5: five errors. -/
example : ∃ p p', Rs.XMSSPool.new .release toySha (List.replicate 48 7) 5 10 2 = .ok p ∧
    poolHistory .release toySha 5 p = .ok (List.replicate 5 (.error .invalidArgument), p') ∧ p'.getCurrentIndex = 15 :=
  C56_bad_height _ _ _ _ _ _ _ (by decide) (by omega)

example : Rs.XMSSPool.new .debug toySha (List.replicate 48 7) 32 10 2 = .panic :=
  (C56_tall_panics toySha _ 32 10 2 (by decide) (by decide) (by omega)).1 (by omega)

/-- Text of index 41 for the base seed `0a ff`: `0aff42`. -/
example : rustPoolText [0x0a, 0xff] 41 = [48, 97, 102, 102, 52, 50] := by decide +kernel

end Qrl.Props
