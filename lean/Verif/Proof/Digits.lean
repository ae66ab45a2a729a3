import Verif.Proof.LTree

namespace Qrl

open Outcome

/-- The parameter sets of the four supported `w`; `k = log2 w`, `q = 8 / k` digits per byte. -/
structure GoodParams (p : WotsParams) (k q : Nat) : Prop where
  kq : k * q = 8
  w : p.w = 2 ^ k
  logW : p.logW = k
  len1 : p.len1 = 32 * q
  len : p.len = p.len1 + p.len2
  keysize : p.keysize = p.len * 32
  len2 : 1 ≤ p.len2

theorem params2 : wotsSetParams 2 = ok ⟨256, 9, 265, 2, 1, 8480⟩ := by decide +kernel
theorem params4 : wotsSetParams 4 = ok ⟨128, 5, 133, 4, 2, 4256⟩ := by decide +kernel
theorem params16 : wotsSetParams 16 = ok ⟨64, 3, 67, 16, 4, 2144⟩ := by decide +kernel
theorem params256 : wotsSetParams 256 = ok ⟨32, 2, 34, 256, 8, 1088⟩ := by decide +kernel

theorem good2 : GoodParams ⟨256, 9, 265, 2, 1, 8480⟩ 1 8 := by constructor <;> decide
theorem good4 : GoodParams ⟨128, 5, 133, 4, 2, 4256⟩ 2 4 := by constructor <;> decide
theorem good16 : GoodParams ⟨64, 3, 67, 16, 4, 2144⟩ 4 2 := by constructor <;> decide
theorem good256 : GoodParams ⟨32, 2, 34, 256, 8, 1088⟩ 8 1 := by constructor <;> decide

theorem goodParams_of {w : Nat} {p : WotsParams} (hw : w = 2 ∨ w = 4 ∨ w = 16 ∨ w = 256)
    (h : wotsSetParams w = ok p) : p.w = w ∧ ∃ k q, GoodParams p k q := by
  rcases hw with rfl | rfl | rfl | rfl
  · rw [params2] at h; cases h; exact ⟨rfl, _, _, good2⟩
  · rw [params4] at h; cases h; exact ⟨rfl, _, _, good4⟩
  · rw [params16] at h; cases h; exact ⟨rfl, _, _, good16⟩
  · rw [params256] at h; cases h; exact ⟨rfl, _, _, good256⟩

/-- The lowest `m` digits of `t` in base `2^k`, most significant first. -/
def lowDigits (k t : Nat) : Nat → List Nat
  | 0 => []
  | m + 1 => (t / 2 ^ (k * m)) % 2 ^ k :: lowDigits k t m

theorem length_lowDigits (k t m : Nat) : (lowDigits k t m).length = m := by
  induction m with
  | zero => rfl
  | succ m ih => simp [lowDigits, ih]

/-- All digits of a byte string. -/
def byteDigits (k q : Nat) (l : Bytes) : List Nat := l.flatMap fun b => lowDigits k b.toNat q

theorem length_byteDigits (k q : Nat) (l : Bytes) : (byteDigits k q l).length = q * l.length := by
  induction l with
  | nil => rfl
  | cons b l ih =>
    simp only [byteDigits, List.flatMap_cons, List.length_append, length_lowDigits, List.length_cons] at ih ⊢
    rw [ih, Nat.mul_succ]; omega

theorem lowDigits_lt (k t m : Nat) : ∀ d ∈ lowDigits k t m, d < 2 ^ k := by
  induction m with
  | zero => simp [lowDigits]
  | succ m ih =>
    intro d hd
    simp only [lowDigits, List.mem_cons] at hd
    rcases hd with rfl | hd
    · exact Nat.mod_lt _ (Nat.two_pow_pos k)
    · exact ih d hd

theorem byteDigits_lt (k q : Nat) (l : Bytes) : ∀ d ∈ byteDigits k q l, d < 2 ^ k := by
  intro d hd
  obtain ⟨b, _, hb⟩ := List.mem_flatMap.mp hd
  exact lowDigits_lt _ _ _ d hb

theorem baseWLoop_eq (p : WotsParams) (k q : Nat) (hp : GoodParams p k q) (n : Nat) :
    ∀ (inp : Bytes) (t m : Nat), n ≤ m + q * inp.length →
      baseWLoop p inp t (k * m) n = ok ((lowDigits k t m ++ byteDigits k q inp).take n) := by
  have hk : 0 < k := by
    rcases Nat.eq_zero_or_pos k with h | h
    · have := hp.kq; rw [h] at this; simp at this
    · exact h
  have hq : 0 < q := by
    rcases Nat.eq_zero_or_pos q with h | h
    · have := hp.kq; rw [h] at this; simp at this
    · exact h
  have step : ∀ (inp : Bytes) (t m n : Nat),
      (∀ (inp : Bytes) (t m : Nat), n ≤ m + q * inp.length →
        baseWLoop p inp t (k * m) n = ok ((lowDigits k t m ++ byteDigits k q inp).take n)) →
      n + 1 ≤ (m + 1) + q * inp.length →
      (if k * (m + 1) < p.logW then (ub : Outcome (List Nat)) else do
        let ds ← baseWLoop p inp t (k * (m + 1) - p.logW) n
        ok (((t >>> (k * (m + 1) - p.logW)) &&& (p.w - 1)) :: ds)) =
      ok ((lowDigits k t (m + 1) ++ byteDigits k q inp).take (n + 1)) := by
    intro inp t m n ih h
    have h1 : ¬ k * (m + 1) < p.logW := by
      rw [hp.logW, Nat.mul_succ]; omega
    have h2 : k * (m + 1) - p.logW = k * m := by rw [hp.logW, Nat.mul_succ]; omega
    rw [if_neg h1, h2, ih inp t m (by omega), ok_bind, hp.w, Nat.and_two_pow_sub_one_eq_mod,
      Nat.shiftRight_eq_div_pow]
    simp [lowDigits]
  induction n with
  | zero => intro inp t m _; simp [baseWLoop]
  | succ n ih =>
    intro inp t m h
    rw [baseWLoop.eq_def]
    dsimp only
    by_cases hm : m = 0
    · subst hm
      simp only [Nat.mul_zero, if_true]
      match inp with
      | [] => simp at h
      | b :: rest =>
        simp only [ok_bind, Nat.zero_add]
        have e8 : 8 = k * ((q - 1) + 1) := by rw [Nat.sub_add_cancel hq, hp.kq]
        have hle : n + 1 ≤ (q - 1 + 1) + q * rest.length := by
          rw [Nat.sub_add_cancel hq]; simp only [List.length_cons, Nat.mul_succ] at h; omega
        have := step rest b.toNat (q - 1) n ih hle
        rw [← e8] at this
        refine this.trans ?_
        rw [Nat.sub_add_cancel hq]
        simp [byteDigits, lowDigits]
    · obtain ⟨m', rfl⟩ : ∃ m', m = m' + 1 := ⟨m - 1, by omega⟩
      have : k * (m' + 1) ≠ 0 := Nat.ne_of_gt (Nat.mul_pos hk (Nat.succ_pos _))
      simp only [this, if_false, ok_bind]
      exact step inp t m' n ih h

theorem baseW_eq (p : WotsParams) (k q : Nat) (hp : GoodParams p k q) (n : Nat) (inp : Bytes)
    (h : n ≤ q * inp.length) : baseW p n inp = ok ((byteDigits k q inp).take n) := by
  have := baseWLoop_eq p k q hp n inp 0 0 (by omega)
  simpa [baseW, lowDigits] using this

/-- The digit string computed from a digest. -/
def digitString (p : WotsParams) (k q : Nat) (msg : Bytes) : List Nat :=
  byteDigits k q msg ++
    (byteDigits k q (toByte (checksum p (byteDigits k q msg) <<< (8 - ((p.len2 * k) % 8)))
      ((p.len2 * k + 7) / 8))).take p.len2

theorem csum_fits (p : WotsParams) (k q : Nat) (hp : GoodParams p k q) (v : Nat) :
    p.len2 ≤ q * (toByte v ((p.len2 * k + 7) / 8)).length := by
  rw [length_toByte]
  have h1 : p.len2 * k ≤ 8 * ((p.len2 * k + 7) / 8) := by omega
  rw [← hp.kq, Nat.mul_comm p.len2 k, Nat.mul_assoc k q] at h1
  have hk : 0 < k := by
    rcases Nat.eq_zero_or_pos k with h | h
    · have := hp.kq; rw [h] at this; simp at this
    · exact h
  have := Nat.le_of_mul_le_mul_left h1 hk
  rw [Nat.mul_comm p.len2 k]
  have e := hp.kq
  rw [e] at this
  exact this

theorem signDigits_eq (p : WotsParams) (k q : Nat) (hp : GoodParams p k q) (msg : Bytes)
    (hm : msg.length = 32) : signDigits p msg = ok (digitString p k q msg) := by
  have h1 : p.len1 ≤ q * msg.length := by rw [hp.len1, hm, Nat.mul_comm]; omega
  have h2 : (byteDigits k q msg).take p.len1 = byteDigits k q msg := by
    apply List.take_of_length_le; rw [length_byteDigits, hp.len1, hm, Nat.mul_comm]; omega
  simp only [signDigits, baseW_eq p k q hp p.len1 msg h1, h2, ok_bind, hp.logW,
    baseW_eq p k q hp p.len2 _ (csum_fits p k q hp _), digitString]

theorem verifyDigits_eq_signDigits (p : WotsParams) (msg : Bytes) : verifyDigits p msg = signDigits p msg := rfl

theorem length_digitString (p : WotsParams) (k q : Nat) (hp : GoodParams p k q) (msg : Bytes)
    (hm : msg.length = 32) : (digitString p k q msg).length = p.len := by
  have := csum_fits p k q hp (checksum p (byteDigits k q msg) <<< (8 - ((p.len2 * k) % 8)))
  rw [digitString, List.length_append, List.length_take, length_byteDigits, length_byteDigits, hm, hp.len,
    hp.len1]
  omega

theorem digitString_lt (p : WotsParams) (k q : Nat) (hp : GoodParams p k q) (msg : Bytes) :
    ∀ d ∈ digitString p k q msg, d < p.w := by
  intro d hd
  rw [hp.w]
  rcases List.mem_append.mp hd with h | h
  · exact byteDigits_lt _ _ _ d h
  · exact byteDigits_lt _ _ _ d (List.mem_of_mem_take h)

/-! ## Values of digit strings -/

/-- Value of a digit string in base `w`. -/
def digitValue (w : Nat) (l : List Nat) : Nat := l.foldl (fun v d => v * w + d) 0

theorem foldl_digit (w : Nat) (l : List Nat) : ∀ v,
    l.foldl (fun v d => v * w + d) v = v * w ^ l.length + digitValue w l := by
  induction l with
  | nil => intro v; simp [digitValue]
  | cons a l ih =>
    intro v
    have e : digitValue w (a :: l) = a * w ^ l.length + digitValue w l := by
      conv => lhs; rw [digitValue, List.foldl_cons]
      rw [ih]; simp
    rw [List.foldl_cons, ih, e, List.length_cons, Nat.pow_succ, Nat.add_mul, Nat.mul_assoc, Nat.mul_comm w,
      Nat.add_assoc]

theorem digitValue_append (w : Nat) (l l' : List Nat) :
    digitValue w (l ++ l') = digitValue w l * w ^ l'.length + digitValue w l' := by
  conv => lhs; rw [digitValue, List.foldl_append]
  rw [foldl_digit]; rfl

theorem digitValue_cons (w d : Nat) (l : List Nat) :
    digitValue w (d :: l) = d * w ^ l.length + digitValue w l := by
  conv => lhs; rw [digitValue, List.foldl_cons]
  rw [foldl_digit]; simp

theorem digitValue_lt (w : Nat) (l : List Nat) (h : ∀ d ∈ l, d < w) : digitValue w l < w ^ l.length := by
  induction l with
  | nil => simp [digitValue]
  | cons d l ih =>
    rw [digitValue_cons, List.length_cons, Nat.pow_succ]
    have h1 := ih fun d hd => h d (by simp [hd])
    have h2 : d + 1 ≤ w := h d (by simp)
    have h3 := Nat.mul_le_mul_right (w ^ l.length) h2
    rw [Nat.add_mul, Nat.mul_comm w] at h3
    omega

theorem digitValue_take (w : Nat) (l : List Nat) (n : Nat) (h : ∀ d ∈ l, d < w) (hw : 0 < w) :
    digitValue w (l.take n) = digitValue w l / w ^ (l.length - n) := by
  have e := digitValue_append w (l.take n) (l.drop n)
  rw [List.take_append_drop, List.length_drop] at e
  have hl := digitValue_lt w (l.drop n) fun d hd => h d (List.mem_of_mem_drop hd)
  rw [List.length_drop] at hl
  rw [e, Nat.mul_comm, Nat.mul_add_div (Nat.pow_pos hw), Nat.div_eq_of_lt hl, Nat.add_zero]

theorem digitValue_mono (w : Nat) : ∀ (l l' : List Nat), l.length = l'.length →
    (∀ i, l.getD i 0 ≤ l'.getD i 0) → digitValue w l ≤ digitValue w l'
  | [], [], _, _ => Nat.le_refl _
  | a :: l, b :: l', hl, h => by
    rw [digitValue_cons, digitValue_cons]
    have hl : l.length = l'.length := by simpa using hl
    have ih := digitValue_mono w l l' hl fun i => by simpa using h (i + 1)
    have h0 : a ≤ b := by simpa using h 0
    rw [hl]
    exact Nat.add_le_add (Nat.mul_le_mul_right _ h0) ih
  | [], _ :: _, hl, _ => by simp at hl
  | _ :: _, [], hl, _ => by simp at hl

theorem digitValue_lowDigits (k t m : Nat) : digitValue (2 ^ k) (lowDigits k t m) = t % 2 ^ (k * m) := by
  induction m with
  | zero => simp [lowDigits, digitValue, Nat.mod_one]
  | succ m ih =>
    rw [lowDigits, digitValue_cons, ih, length_lowDigits, ← Nat.pow_mul, Nat.mul_succ, Nat.pow_add,
      Nat.mod_mul, Nat.mul_comm]
    omega

/-- Value of a byte string, most significant byte first. -/
def byteValue (l : Bytes) : Nat := digitValue 256 (l.map UInt8.toNat)

theorem digitValue_byteDigits (k q : Nat) (hkq : k * q = 8) (l : Bytes) :
    digitValue (2 ^ k) (byteDigits k q l) = byteValue l := by
  induction l with
  | nil => rfl
  | cons b l ih =>
    have e : byteDigits k q (b :: l) = lowDigits k b.toNat q ++ byteDigits k q l := rfl
    rw [e, digitValue_append, ih, digitValue_lowDigits, hkq, byteValue, byteValue, List.map_cons, digitValue_cons,
      length_byteDigits, List.length_map, ← Nat.pow_mul, ← Nat.mul_assoc, hkq]
    have : b.toNat % 2 ^ 8 = b.toNat := Nat.mod_eq_of_lt b.toNat_lt
    rw [this, Nat.pow_mul]

theorem byteValue_toByte (v n : Nat) : byteValue (toByte v n) = v % 256 ^ n := by
  induction n generalizing v with
  | zero => simp [toByte, byteValue, digitValue, Nat.mod_one]
  | succ n ih =>
    have ih := ih (v / 256)
    simp only [byteValue] at ih ⊢
    rw [toByte, List.map_append, digitValue_append, ih]
    have e1 : digitValue 256 ([UInt8.ofNat (v % 256)].map UInt8.toNat) = v % 256 := by simp [digitValue]
    rw [e1]
    simp only [List.length_map, List.length_singleton, Nat.pow_one]
    rw [Nat.pow_succ, Nat.mul_comm (256 ^ n), Nat.mod_mul]
    omega

theorem byteDigits_inj (k q : Nat) (hkq : k * q = 8) : ∀ (l l' : Bytes), l.length = l'.length →
    byteDigits k q l = byteDigits k q l' → l = l'
  | [], [], _, _ => rfl
  | a :: l, b :: l', hl, h => by
    have e : lowDigits k a.toNat q ++ byteDigits k q l = lowDigits k b.toNat q ++ byteDigits k q l' := h
    obtain ⟨h1, h2⟩ := List.append_inj e (by simp [length_lowDigits])
    have hv := congrArg (digitValue (2 ^ k)) h1
    rw [digitValue_lowDigits, digitValue_lowDigits, hkq, Nat.mod_eq_of_lt a.toNat_lt,
      Nat.mod_eq_of_lt b.toNat_lt] at hv
    rw [byteDigits_inj k q hkq l l' (by simpa using hl) h2, UInt8.toNat_inj.mp hv]
  | [], _ :: _, hl, _ => by simp at hl
  | _ :: _, [], hl, _ => by simp at hl

/-! ## Checksum -/

theorem checksum_mono (p : WotsParams) : ∀ (l l' : List Nat), l.length = l'.length →
    (∀ d ∈ l', d < p.w) → (∀ i, l.getD i 0 ≤ l'.getD i 0) →
    checksum p l' ≤ checksum p l ∧ (checksum p l = checksum p l' → l = l')
  | [], [], _, _, _ => by simp
  | a :: l, b :: l', hl, hw, h => by
    have ih := checksum_mono p l l' (by simpa using hl) (fun d hd => hw d (by simp [hd]))
      fun i => by simpa using h (i + 1)
    have h0 : a ≤ b := by simpa using h 0
    have hb : b < p.w := hw b (by simp)
    simp only [checksum]
    refine ⟨by omega, fun e => ?_⟩
    have : a = b := by omega
    subst this
    rw [ih.2 (by omega)]
  | [], _ :: _, hl, _, _ => by simp at hl
  | _ :: _, [], hl, _, _ => by simp at hl

theorem checksum_le (p : WotsParams) (l : List Nat) : checksum p l ≤ l.length * (p.w - 1) := by
  induction l with
  | nil => simp [checksum]
  | cons a l ih => simp only [checksum, List.length_cons, Nat.succ_mul]; omega

/-- The checksum digits are the exact base-`w` digits of the checksum whenever the shift is right. -/
theorem csumDigits_value (p : WotsParams) (k q : Nat) (hp : GoodParams p k q) (v : Nat)
    (hs : k * (q * ((p.len2 * k + 7) / 8) - p.len2) = 8 - ((p.len2 * k) % 8))
    (hv : v <<< (8 - ((p.len2 * k) % 8)) < 256 ^ ((p.len2 * k + 7) / 8)) :
    digitValue p.w ((byteDigits k q (toByte (v <<< (8 - ((p.len2 * k) % 8)))
      ((p.len2 * k + 7) / 8))).take p.len2) = v := by
  rw [hp.w, digitValue_take _ _ _ (byteDigits_lt k q _) (Nat.two_pow_pos k),
    digitValue_byteDigits k q hp.kq, byteValue_toByte, Nat.mod_eq_of_lt hv, length_byteDigits, length_toByte,
    ← Nat.pow_mul, hs, Nat.shiftLeft_eq, Nat.mul_div_cancel _ (Nat.two_pow_pos _)]

theorem antichain (p : WotsParams) (k q : Nat) (hp : GoodParams p k q)
    (hs : k * (q * ((p.len2 * k + 7) / 8) - p.len2) = 8 - ((p.len2 * k) % 8))
    (hv : (p.len1 * (p.w - 1)) <<< (8 - ((p.len2 * k) % 8)) < 256 ^ ((p.len2 * k + 7) / 8))
    (m m' : Bytes) (hm : m.length = 32) (hm' : m'.length = 32)
    (h : ∀ i, (digitString p k q m).getD i 0 ≤ (digitString p k q m').getD i 0) : m = m' := by
  have hl : (byteDigits k q m).length = (byteDigits k q m').length := by
    rw [length_byteDigits, length_byteDigits, hm, hm']
  have hfit : ∀ x : Bytes, x.length = 32 →
      checksum p (byteDigits k q x) <<< (8 - ((p.len2 * k) % 8)) < 256 ^ ((p.len2 * k + 7) / 8) := by
    intro x hx
    refine Nat.lt_of_le_of_lt ?_ hv
    rw [Nat.shiftLeft_eq, Nat.shiftLeft_eq]
    apply Nat.mul_le_mul_right
    have := checksum_le p (byteDigits k q x)
    rwa [length_byteDigits, hx, Nat.mul_comm q, ← hp.len1] at this
  -- message part
  have hmsg : ∀ i, (byteDigits k q m).getD i 0 ≤ (byteDigits k q m').getD i 0 := by
    intro i
    by_cases hi : i < (byteDigits k q m).length
    · have := h i
      simp only [digitString, List.getD_eq_getElem?_getD, List.getElem?_append_left hi,
        List.getElem?_append_left (hl ▸ hi)] at this
      simpa [List.getD_eq_getElem?_getD] using this
    · simp [List.getElem?_eq_none (Nat.le_of_not_lt hi)]
  have hc := checksum_mono p _ _ hl (fun d hd => by rw [hp.w]; exact byteDigits_lt _ _ _ d hd) hmsg
  -- checksum part
  have hcs := csumDigits_value p k q hp _ hs (hfit m hm)
  have hcs' := csumDigits_value p k q hp _ hs (hfit m' hm')
  have hle : checksum p (byteDigits k q m) ≤ checksum p (byteDigits k q m') := by
    rw [← hcs, ← hcs']
    apply digitValue_mono
    · simp only [List.length_take, length_byteDigits, length_toByte]
    · intro i
      have := h ((byteDigits k q m).length + i)
      rw [digitString, digitString] at this
      have e1 : ∀ (a b : List Nat), (a ++ b).getD (a.length + i) 0 = b.getD i 0 := by
        intro a b
        rw [List.getD_eq_getElem?_getD, List.getD_eq_getElem?_getD, List.getElem?_append_right (by omega), Nat.add_sub_cancel_left]
      rw [e1, hl, e1] at this
      exact this
  exact byteDigits_inj k q hp.kq m m' (by rw [hm, hm']) (hc.2 (Nat.le_antisymm hle hc.1))

end Qrl
