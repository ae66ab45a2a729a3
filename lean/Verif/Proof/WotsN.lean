import Verif.Spec.WotsN
import Verif.Model.WotsN
import Verif.Proof.WotsGen

namespace Qrl

open Outcome

theorem coreHashRaw_hashN (S : Sha256) (hf type n : Nat) (key inp : Bytes) :
    coreHashRaw S hf type key inp n = (Spec.hashN S hf n).map fun G => G (Spec.be n type ++ key ++ inp) := by
  simp only [coreHashRaw, Spec.hashN, toByte_eq_be]
  by_cases h32 : n = 32
  · subst h32
    rcases (by omega : hf = 0 ∨ hf = 1 ∨ hf = 2 ∨ 3 ≤ hf) with rfl | rfl | rfl | h
    · simp
    · simp
    · simp
    · simp [show hf ≠ 0 by omega, show hf ≠ 1 by omega, show hf ≠ 2 by omega]
  · by_cases h64 : n = 64
    · subst h64
      rcases (by omega : hf = 0 ∨ hf = 1 ∨ hf = 2 ∨ 3 ≤ hf) with rfl | rfl | rfl | h
      · simp
      · simp
      · simp
      · simp [show hf ≠ 1 by omega, show hf ≠ 2 by omega]
    · simp [h32, h64]

theorem coreHashN_some {S : Sha256} {hf n : Nat} {G : Bytes → Bytes} (h : Spec.hashN S hf n = some G) (type : Nat)
    (key inp : Bytes) (out : Slot) :
    coreHashN S hf type (some key) (some inp) n out = (0, some (G (Spec.be n type ++ key ++ inp))) := by
  simp [coreHashN, coreHashRaw_hashN, h]

theorem coreHashN_none {S : Sha256} {hf n : Nat} (h : Spec.hashN S hf n = none) (type : Nat)
    (key inp out : Slot) : coreHashN S hf type key inp n out = (1, out) := by
  cases key <;> cases inp <;> simp [coreHashN, coreHashRaw_hashN, h]

theorem toBytes_adrsN (a : Adrs) (km : Nat) : (a.setKeyAndMask km).toBytes = Spec.adrsN a km := by
  simp only [Adrs.toBytes, Spec.adrsN, Adrs.setKeyAndMask, toByte_eq_be]

theorem adrsN_setKeyAndMask (a : Adrs) (x km : Nat) : Spec.adrsN (a.setKeyAndMask x) km = Spec.adrsN a km := rfl

theorem hashFN_some {S : Sha256} {hf n : Nat} {G : Bytes → Bytes} (h : Spec.hashN S hf n = some G)
    (x ps : Bytes) (addr : Adrs) (out : Slot) :
    hashFN S hf (some x) ps addr n out = (0, some (Spec.Fn G n ps addr x), addr.setKeyAndMask 1) := by
  simp only [hashFN, prfN, coreHashN_some h, xorSlot, Option.bind_eq_bind, Option.bind_some, Option.pure_def,
    toBytes_adrsN, adrsN_setKeyAndMask]
  rfl

theorem hashFN_none {S : Sha256} {hf n : Nat} (h : Spec.hashN S hf n = none)
    (x : Slot) (ps : Bytes) (addr : Adrs) (out : Slot) :
    hashFN S hf x ps addr n out = (1, out, addr.setKeyAndMask 1) := by
  simp only [hashFN, prfN, coreHashN_none h]
  rfl

theorem hashHN_some {S : Sha256} {hf n : Nat} {G : Bytes → Bytes} (h : Spec.hashN S hf n = some G)
    (l r ps : Bytes) (addr : Adrs) (out : Slot) :
    hashHN S hf (some (l ++ r)) ps addr n out = (0, some (Spec.Hn G n ps addr l r), addr.setKeyAndMask 2) := by
  simp only [hashHN, prfN, coreHashN_some h, xorSlot, joinSlot, Option.bind_eq_bind, Option.bind_some, Option.pure_def,
    toBytes_adrsN, adrsN_setKeyAndMask]
  rfl

theorem hashHN_none {S : Sha256} {hf n : Nat} (h : Spec.hashN S hf n = none)
    (x : Slot) (ps : Bytes) (addr : Adrs) (out : Slot) :
    hashHN S hf x ps addr n out = (1, out, addr.setKeyAndMask 2) := by
  simp only [hashHN, prfN, coreHashN_none h]
  rfl

/-! ## Supported -/

section supported
variable {S : Sha256} {hf n : Nat} {G : Bytes → Bytes} (h : Spec.hashN S hf n = some G)
include h

theorem expandSeedN_some (sk : Bytes) : ∀ (os : List Slot) (i : Nat),
    expandSeedN S hf n sk i os = (List.range' i os.length).map fun ch => some (Spec.PRFn G n sk (Spec.be 32 ch))
  | [], _ => rfl
  | o :: os, i => by
    rw [expandSeedN, expandSeedN_some sk os (i + 1), prfN, coreHashN_some h, List.length_cons, List.range'_succ,
      List.map_cons, toByte_eq_be]
    rfl

/-- Words 5 to 7 of the address are scratch for a chain. -/
theorem genChainN_some (w : Nat) (ps : Bytes) (a : Adrs) (ch m : Nat) :
    ∀ (x : Bytes) (s c d : Nat), s + m ≤ w → ∃ c' d',
      genChainN S hf n w ps (some x) s m { a with w5 := ch, w6 := c, w7 := d } =
        (some (Spec.chainN G n ps a ch s m x), { a with w5 := ch, w6 := c', w7 := d' }) := by
  induction m with
  | zero => intro x s c d _; exact ⟨c, d, rfl⟩
  | succ m ih =>
    intro x s c d hs
    have hs' : s < w := by omega
    simp only [genChainN, hs', if_true, Adrs.setHash, hashFN_some h, Spec.chainN]
    exact ih _ (s + 1) s 1 (by omega)

theorem pkgenLoopN_some (p : WotsParams) (ps : Bytes) (a : Adrs) (xs : List Bytes) :
    ∀ (ch b c d : Nat),
      (pkgenLoopN S hf n p ps ch (xs.map some) { a with w5 := b, w6 := c, w7 := d }).1 =
        ((xs.zipIdx ch).map fun (x, k) => Spec.chainN G n ps a k 0 (p.w - 1) x).map some := by
  induction xs with
  | nil => intro ch b c d; rfl
  | cons x xs ih =>
    intro ch b c d
    obtain ⟨c1, d1, h1⟩ := genChainN_some h p.w ps a ch (p.w - 1) x 0 c d (by omega)
    simp only [List.map_cons, pkgenLoopN, Adrs.setChain, h1, ih, List.zipIdx_cons]

theorem wotsSignLoopN_some (p : WotsParams) (ps : Bytes) (a : Adrs) (xs : List (Bytes × Nat)) (hx : ∀ y ∈ xs, y.2 ≤ p.w) :
    ∀ (ch b c d : Nat),
      (wotsSignLoopN S hf n p ps ch (xs.map fun y => (some y.1, y.2)) { a with w5 := b, w6 := c, w7 := d }).1 =
        ((xs.zipIdx ch).map fun (x, k) => Spec.chainN G n ps a k 0 x.2 x.1).map some := by
  induction xs with
  | nil => intro ch b c d; rfl
  | cons x xs ih =>
    obtain ⟨x, dg⟩ := x
    intro ch b c d
    have hd : dg ≤ p.w := hx (x, dg) (by simp)
    obtain ⟨c1, d1, h1⟩ := genChainN_some h p.w ps a ch dg x 0 c d (by omega)
    simp only [List.map_cons, wotsSignLoopN, Adrs.setChain, h1, List.zipIdx_cons, ih (fun y hy => hx y (by simp [hy]))]

theorem pkFromSigLoopN_some (p : WotsParams) (ps : Bytes) (a : Adrs) (xs : List (Bytes × Nat)) (hx : ∀ y ∈ xs, y.2 < p.w) :
    ∀ (ch b c d : Nat),
      (pkFromSigLoopN S hf n p ps ch (xs.map fun y => (some y.1, y.2)) { a with w5 := b, w6 := c, w7 := d }).1 =
        ((xs.zipIdx ch).map fun (x, k) => Spec.chainN G n ps a k x.2 (p.w - 1 - x.2) x.1).map some := by
  induction xs with
  | nil => intro ch b c d; rfl
  | cons x xs ih =>
    obtain ⟨x, dg⟩ := x
    intro ch b c d
    have hd : dg < p.w := hx (x, dg) (by simp)
    obtain ⟨c1, d1, h1⟩ := genChainN_some h p.w ps a ch (p.w - 1 - dg) x dg c d (by omega)
    simp only [List.map_cons, pkFromSigLoopN, Adrs.setChain, h1, List.zipIdx_cons, ih (fun y hy => hx y (by simp [hy]))]

end supported

theorem chainN_add (G : Bytes → Bytes) (n : Nat) (ps : Bytes) (a : Adrs) (ch m k : Nat) : ∀ (s : Nat) (x : Bytes),
    Spec.chainN G n ps a ch (s + m) k (Spec.chainN G n ps a ch s m x) = Spec.chainN G n ps a ch s (m + k) x := by
  induction m with
  | zero => intro s x; simp [Spec.chainN]
  | succ m ih =>
    intro s x
    rw [show m + 1 + k = (m + k) + 1 by omega]
    simp only [Spec.chainN]
    rw [← ih (s + 1), show s + (m + 1) = s + 1 + m by omega]

theorem chainN_scratch (G : Bytes → Bytes) (n : Nat) (ps : Bytes) (a : Adrs) (b c d ch m : Nat) : ∀ (s : Nat) (x : Bytes),
    Spec.chainN G n ps { a with w5 := b, w6 := c, w7 := d } ch s m x = Spec.chainN G n ps a ch s m x := by
  induction m with
  | zero => intro s x; rfl
  | succ m ih => intro s x; simp only [Spec.chainN]; rw [ih]; rfl

theorem length_hashN {S : Sha256} {hf n : Nat} {G : Bytes → Bytes} (h : Spec.hashN S hf n = some G) (m : Bytes) :
    (G m).length = n := by
  unfold Spec.hashN at h
  split at h
  · next h1 => cases h; rw [h1.2]; exact length_prim S .sha2_256 m
  · split at h
    · cases h; exact length_shake128 ..
    · split at h
      · cases h; exact length_shake256 ..
      · cases h

theorem length_chainN {S : Sha256} {hf n : Nat} {G : Bytes → Bytes} (h : Spec.hashN S hf n = some G) (ps : Bytes) (a : Adrs)
    (ch m : Nat) : ∀ (s : Nat) (x : Bytes), x.length = n → (Spec.chainN G n ps a ch s m x).length = n := by
  induction m with
  | zero => intro s x hx; exact hx
  | succ m ih => intro s x _; exact ih _ _ (length_hashN h _)

theorem chainsN_complete (G : Bytes → Bytes) (n : Nat) (p : WotsParams) (ps : Bytes) (a : Adrs) :
    ∀ (xs : List Bytes) (ds : List Nat) (ch : Nat), xs.length = ds.length → (∀ d ∈ ds, d < p.w) →
      (((((xs.zip ds).zipIdx ch).map fun (x, k) => Spec.chainN G n ps a k 0 x.2 x.1).zip ds).zipIdx ch).map
        (fun (x, k) => Spec.chainN G n ps a k x.2 (p.w - 1 - x.2) x.1) =
      (xs.zipIdx ch).map fun (x, k) => Spec.chainN G n ps a k 0 (p.w - 1) x
  | [], [], _, _, _ => rfl
  | x :: xs, d :: ds, ch, hl, hd => by
    have hlt : d < p.w := hd d (by simp)
    have ih := chainsN_complete G n p ps a xs ds (ch + 1) (by simpa using hl) fun d hd' => hd d (by simp [hd'])
    simp only [List.zip_cons_cons, List.zipIdx_cons, List.map_cons] at ih ⊢
    rw [ih]
    have := chainN_add G n ps a ch d (p.w - 1 - d) 0 x
    rw [Nat.zero_add, show d + (p.w - 1 - d) = p.w - 1 by omega] at this
    rw [this]
  | [], _ :: _, _, hl, _ => by simp at hl
  | _ :: _, [], _, hl, _ => by simp at hl

/-! ## Not supported -/

section unsupported
variable {S : Sha256} {hf n : Nat} (h : Spec.hashN S hf n = none)
include h

theorem expandSeedN_none (sk : Bytes) : ∀ (os : List Slot) (i : Nat), expandSeedN S hf n sk i os = os
  | [], _ => rfl
  | o :: os, i => by rw [expandSeedN, expandSeedN_none sk os (i + 1), prfN, coreHashN_none h]

theorem genChainN_none (w : Nat) (ps : Bytes) (m : Nat) : ∀ (x : Slot) (s : Nat) (a : Adrs),
    (genChainN S hf n w ps x s m a).1 = x := by
  induction m with
  | zero => intro x s a; rfl
  | succ m ih =>
    intro x s a
    rw [genChainN]
    split
    · simp only [hashFN_none h]; exact ih _ _ _
    · rfl

theorem pkgenLoopN_none (p : WotsParams) (ps : Bytes) : ∀ (xs : List Slot) (i : Nat) (a : Adrs),
    (pkgenLoopN S hf n p ps i xs a).1 = xs
  | [], _, _ => rfl
  | x :: xs, i, a => by
    simp only [pkgenLoopN, genChainN_none h, pkgenLoopN_none p ps xs]

theorem wotsSignLoopN_none (p : WotsParams) (ps : Bytes) : ∀ (xs : List (Slot × Nat)) (i : Nat) (a : Adrs),
    (wotsSignLoopN S hf n p ps i xs a).1 = xs.map (·.1)
  | [], _, _ => rfl
  | (x, d) :: xs, i, a => by
    simp only [wotsSignLoopN, genChainN_none h, wotsSignLoopN_none p ps xs, List.map_cons]

theorem pkFromSigLoopN_none (p : WotsParams) (ps : Bytes) : ∀ (xs : List (Slot × Nat)) (i : Nat) (a : Adrs),
    (pkFromSigLoopN S hf n p ps i xs a).1 = xs.map (·.1)
  | [], _, _ => rfl
  | (x, d) :: xs, i, a => by
    simp only [pkFromSigLoopN, genChainN_none h, pkFromSigLoopN_none p ps xs, List.map_cons]

end unsupported

/-! ## Digits -/

/-- The parameter sets of the four `w` and any `n`. -/
structure GoodN (n : Nat) (p : WotsParams) (k q : Nat) : Prop where
  kq : k * q = 8
  w : p.w = 2 ^ k
  logW : p.logW = k
  len1 : p.len1 = n * q
  len : p.len = p.len1 + p.len2
  len2 : 1 ≤ p.len2

/-- The same digits with the lengths of `n = 32`. -/
def as32 (p : WotsParams) (q : Nat) : WotsParams :=
  { p with len1 := 32 * q, len := 32 * q + p.len2, keysize := (32 * q + p.len2) * 32 }

theorem GoodN.good {n : Nat} {p : WotsParams} {k q : Nat} (h : GoodN n p k q) : GoodParams (as32 p q) k q :=
  ⟨h.kq, h.w, h.logW, rfl, rfl, rfl, h.len2⟩

theorem baseWLoop_as32 (p : WotsParams) (q : Nat) (m : Nat) : ∀ (inp : Bytes) (t b : Nat),
    baseWLoop p inp t b m = baseWLoop (as32 p q) inp t b m := by
  induction m with
  | zero => intro inp t b; rfl
  | succ m ih =>
    intro inp t b
    rw [baseWLoop.eq_def, baseWLoop.eq_def]
    simp only [ih]
    rfl

theorem checksum_as32 (p : WotsParams) (q : Nat) : ∀ l : List Nat, checksum p l = checksum (as32 p q) l
  | [] => rfl
  | d :: l => by simp only [checksum, checksum_as32 p q l]; rfl

theorem digitString_as32 (p : WotsParams) (k q : Nat) (msg : Bytes) :
    digitString p k q msg = digitString (as32 p q) k q msg := by
  simp only [digitString, checksum_as32 p q]; rfl

theorem signDigits_N {n : Nat} {p : WotsParams} {k q : Nat} (hp : GoodN n p k q) (msg : Bytes)
    (hm : msg.length = n) : signDigits p msg = ok (digitString p k q msg) := by
  have h1 : p.len1 ≤ q * msg.length := by rw [hp.len1, hm, Nat.mul_comm]; exact Nat.le_refl _
  have h2 : (byteDigits k q msg).take p.len1 = byteDigits k q msg := by
    apply List.take_of_length_le; rw [length_byteDigits, hp.len1, hm, Nat.mul_comm]; exact Nat.le_refl _
  have hb : ∀ m inp, baseW p m inp = baseW (as32 p q) m inp := fun m inp => baseWLoop_as32 p q m inp 0 0
  simp only [signDigits, hb, baseW_eq _ k q hp.good p.len1 msg h1, h2, ok_bind, hp.logW]
  have h3 := baseW_eq _ k q hp.good p.len2 (toByte (checksum p (byteDigits k q msg) <<< (8 - ((p.len2 * k) % 8)))
      ((p.len2 * k + 7) / 8)) (csum_fits (as32 p q) k q hp.good _)
  rw [h3, ok_bind, digitString]

theorem length_digitStringN {n : Nat} {p : WotsParams} {k q : Nat} (hp : GoodN n p k q) (msg : Bytes)
    (hm : msg.length = n) : (digitString p k q msg).length = p.len := by
  have := csum_fits (as32 p q) k q hp.good (checksum p (byteDigits k q msg) <<< (8 - ((p.len2 * k) % 8)))
  have h2 : (as32 p q).len2 = p.len2 := rfl
  rw [h2] at this
  rw [digitString, List.length_append, List.length_take, length_byteDigits, length_byteDigits, hm, hp.len,
    hp.len1, Nat.mul_comm q n]
  omega

theorem digitStringN_lt {n : Nat} {p : WotsParams} {k q : Nat} (hp : GoodN n p k q) (msg : Bytes) :
    ∀ d ∈ digitString p k q msg, d < p.w := by
  rw [digitString_as32]; exact digitString_lt (as32 p q) k q hp.good msg

theorem antichainN {n : Nat} {p : WotsParams} {k q : Nat} (hp : GoodN n p k q)
    (hs : k * (q * ((p.len2 * k + 7) / 8) - p.len2) = 8 - ((p.len2 * k) % 8))
    (hv : (p.len1 * (p.w - 1)) <<< (8 - ((p.len2 * k) % 8)) < 256 ^ ((p.len2 * k + 7) / 8))
    (m m' : Bytes) (hm : m.length = n) (hm' : m'.length = n)
    (h : ∀ i, (digitString p k q m).getD i 0 ≤ (digitString p k q m').getD i 0) : m = m' := by
  have hl : (byteDigits k q m).length = (byteDigits k q m').length := by
    rw [length_byteDigits, length_byteDigits, hm, hm']
  have hfit : ∀ x : Bytes, x.length = n →
      checksum p (byteDigits k q x) <<< (8 - ((p.len2 * k) % 8)) < 256 ^ ((p.len2 * k + 7) / 8) := by
    intro x hx
    refine Nat.lt_of_le_of_lt ?_ hv
    rw [Nat.shiftLeft_eq, Nat.shiftLeft_eq]
    apply Nat.mul_le_mul_right
    have := checksum_le p (byteDigits k q x)
    rwa [length_byteDigits, hx, Nat.mul_comm q, ← hp.len1] at this
  have hmsg : ∀ i, (byteDigits k q m).getD i 0 ≤ (byteDigits k q m').getD i 0 := by
    intro i
    by_cases hi : i < (byteDigits k q m).length
    · have := h i
      simp only [digitString, List.getD_eq_getElem?_getD, List.getElem?_append_left hi,
        List.getElem?_append_left (hl ▸ hi)] at this
      simpa [List.getD_eq_getElem?_getD] using this
    · simp [List.getElem?_eq_none (Nat.le_of_not_lt hi)]
  have hc := checksum_mono p _ _ hl (fun d hd => by rw [hp.w]; exact byteDigits_lt _ _ _ d hd) hmsg
  have hcs : digitValue p.w _ = _ := csumDigits_value (as32 p q) k q hp.good _ hs (hfit m hm)
  have hcs' : digitValue p.w _ = _ := csumDigits_value (as32 p q) k q hp.good _ hs (hfit m' hm')
  have hle : checksum p (byteDigits k q m) ≤ checksum p (byteDigits k q m') := by
    rw [← hcs, ← hcs']
    apply digitValue_mono
    · simp only [List.length_take, length_byteDigits, length_toByte]
    · intro i
      have := h ((byteDigits k q m).length + i)
      rw [digitString, digitString] at this
      have e1 : ∀ (a b : List Nat), (a ++ b).getD (a.length + i) 0 = b.getD i 0 := by
        intro a b
        rw [List.getD_eq_getElem?_getD, List.getD_eq_getElem?_getD, List.getElem?_append_right (by omega), Nat.add_sub_cancel_left]
      rw [e1, hl, e1] at this
      exact this
  exact byteDigits_inj k q hp.kq m m' (by rw [hm, hm']) (hc.2 (Nat.le_antisymm hle hc.1))

/-! ## Parameters -/

theorem wotsSetParamsN_eq {n w : Nat} (hn : 1 ≤ n) (hn' : n ≤ 4096) (hw : w = 2 ∨ w = 4 ∨ w = 16 ∨ w = 256) :
    wotsSetParamsN n w = ok ⟨Spec.len1N n w, Spec.len2N n w, Spec.len1N n w + Spec.len2N n w, w, Nat.log2 w,
      (Spec.len1N n w + Spec.len2N n w) * n⟩ ∧
    ∃ k q, GoodN n ⟨Spec.len1N n w, Spec.len2N n w, Spec.len1N n w + Spec.len2N n w, w, Nat.log2 w,
      (Spec.len1N n w + Spec.len2N n w) * n⟩ k q := by
  obtain ⟨k, q, hk, hkq, hwk, hk8⟩ : ∃ k q, Nat.log2 w = k ∧ k * q = 8 ∧ w = 2 ^ k ∧ k ≤ 8 := by
    rcases hw with rfl | rfl | rfl | rfl
    · exact ⟨1, 8, by decide +kernel, rfl, rfl, by omega⟩
    · exact ⟨2, 4, by decide +kernel, rfl, rfl, by omega⟩
    · exact ⟨4, 2, by decide +kernel, rfl, rfl, by omega⟩
    · exact ⟨8, 1, by decide +kernel, rfl, rfl, by omega⟩
  have hk0 : 0 < k := by rcases Nat.eq_zero_or_pos k with h | h; · rw [h] at hkq; simp at hkq
                         · exact h
  have hq0 : 0 < q := by rcases Nat.eq_zero_or_pos q with h | h; · rw [h] at hkq; simp at hkq
                         · exact h
  have hq8 : q ≤ 8 := by rw [← hkq]; exact Nat.le_mul_of_pos_left q hk0
  have hl1 : 8 * n / k = n * q := by
    rw [← hkq, Nat.mul_assoc, Nat.mul_div_cancel_left _ hk0, Nat.mul_comm]
  have hw256 : w ≤ 256 := by omega
  have hw2 : 2 ≤ w := by omega
  have hnq : n * q ≤ 4096 * 8 := Nat.mul_le_mul hn' hq8
  have hnq0 : 1 ≤ n * q := Nat.mul_pos hn hq0
  have hprod : n * q * (w - 1) ≤ 4096 * 8 * 255 := Nat.mul_le_mul hnq (by omega)
  have hpos : 0 < n * q * (w - 1) := Nat.mul_pos hnq0 (by omega)
  have hlog : Nat.log2 (n * q * (w - 1)) < 24 := (Nat.log2_lt (by omega)).mpr (by omega)
  have hl2 : Nat.log2 (n * q * (w - 1)) / k + 1 ≤ 24 := by
    have := Nat.div_le_self (Nat.log2 (n * q * (w - 1))) k; omega
  have hks : (n * q + (Nat.log2 (n * q * (w - 1)) / k + 1)) * n < 2 ^ 32 := by
    have := Nat.mul_le_mul (show n * q + (Nat.log2 (n * q * (w - 1)) / k + 1) ≤ 4096 * 8 + 24 by omega) hn'
    omega
  have e1 : Spec.len1N n w = n * q := by rw [Spec.len1N, hk, hl1]
  have e2 : Spec.len2N n w = Nat.log2 (n * q * (w - 1)) / k + 1 := by rw [Spec.len2N, e1, hk]
  constructor
  · rw [wotsSetParamsN, if_neg (by omega), if_neg (by omega)]
    simp only [hk, if_neg (show ¬ k = 0 by omega), hl1]
    rw [Nat.mod_eq_of_lt (show n * q * (w - 1) < 2 ^ 32 by omega), if_neg (by omega), Nat.mod_eq_of_lt hks, e1, e2]
  · exact ⟨k, q, hkq, hwk, hk, e1, rfl, Nat.le_add_left 1 _⟩

end Qrl
