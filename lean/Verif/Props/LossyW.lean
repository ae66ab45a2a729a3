import Verif.Proof.AnyW
import Verif.Props.BadW
/-!
# C67: Winternitz parameters that are not powers of two but can be used

For `w` in 3, 5..7, 17..31 and 257..511 `XmssBasic` signs and `verify` verifies without error, but the chain positions
are cut out with the mask `w - 1`, so some bits of every byte of the message digest do not count.
-/

namespace Qrl.Props

open Outcome

theorem verifyFull_any (S : Sha256) (msg sig epk : Bytes) (w : Nat) (hw : Spec.UsableW w) :
    verifyFull S msg sig epk w =
      if WellFormed w sig epk then
        match HashFn.ofNat? (keyHash epk) with
        | some hf => ok (decide (Spec.rootFromSigAny (hf.prim S) w (keyHeight epk) (keyRoot epk) (keySeed epk) msg sig =
            keyRoot epk), msg)
        | none => .ub
      else ok (false, msg) := by
  obtain ⟨p, k, q, hs⟩ := anyParams hw
  have h1 := hs.len_pos
  have h2 := hs.small
  have hb := base_any hs
  rw [verifyFull]
  by_cases hl : epk.length = 67
  swap
  · rw [if_neg (show ¬ WellFormed w sig epk from fun h => hl h.1), if_pos hl]; rfl
  simp only [hl, ne_eq, not_true, if_false, hb, ok_bind]
  have hkh : keyHeight epk ≤ 30 := by rw [keyHeight]; omega
  have hke : keyHeight epk % 2 = 0 := by rw [keyHeight]; omega
  have hku : (UInt8.ofNat (keyHeight epk)).toNat = keyHeight epk := by
    simp only [UInt8.toNat_ofNat']; omega
  by_cases hbig : sig.length > 4 + 32 + 32 * p.len + 254 * 32
  · rw [if_pos hbig, if_neg (by simp only [WellFormed, hs.len]; omega)]; rfl
  rw [if_neg hbig, fromExtendedPK_eq epk hl, ok_bind]
  simp only [sigTypeXMSS, not_true, if_false]
  rw [getHeightFromSigSize, hb, ok_bind]
  by_cases hlt : sig.length < 4 + 32 + 32 * p.len
  · rw [if_pos hlt, if_neg (by simp only [WellFormed, hs.len]; omega)]; rfl
  rw [if_neg hlt]
  by_cases hm : (sig.length - 4) % 32 ≠ 0
  · rw [if_pos hm, if_neg (by simp only [WellFormed, hs.len]; omega)]; rfl
  rw [if_neg hm, ok_bind]
  generalize hH : (sig.length - (4 + 32 + 32 * p.len)) / 32 = H
  have hHl : H ≤ 254 := by omega
  have hsl : sig.length = 4 + 32 + 32 * p.len + 32 * H := by omega
  have hHu : (UInt8.ofNat H).toNat = H := by simp only [UInt8.toNat_ofNat']; omega
  by_cases hz : UInt8.ofNat H = 0 ∨ UInt8.ofNat (keyHeight epk) ≠ UInt8.ofNat H
  · rw [if_pos hz, if_neg]
    · rfl
    · simp only [WellFormed, hs.len]
      intro hwf
      rcases hz with hz | hz
      · have := congrArg UInt8.toNat hz
        rw [hHu] at this
        have h0 : H = 0 := this
        omega
      · apply hz
        congr 1; omega
  · rw [if_neg hz]
    have hHk : keyHeight epk = H := by
      have : UInt8.ofNat (keyHeight epk) = UInt8.ofNat H := Classical.byContradiction fun h => hz (Or.inr h)
      have := congrArg UInt8.toNat this
      rw [hHu, hku] at this; exact this
    rw [hHu]
    by_cases h2H : 2 ≥ H ∨ (H - 2) % 2 ≠ 0
    · rw [if_pos h2H, if_neg (by simp only [WellFormed, hs.len]; omega)]; rfl
    · rw [if_neg h2H, if_pos (by simp only [WellFormed, hs.len]; omega)]
      rw [xmssSetParams, if_neg h2H, hs.set, ok_bind, ok_bind]
      simp only [withHash]
      cases hof : HashFn.ofNat? (keyHash epk) with
      | none => rfl
      | some hf =>
        dsimp only
        have hd : (epk.drop 3).drop 32 = keySeed epk := by simp [keySeed]
        rw [xmssVerifysig_any S hf hs msg sig (epk.drop 3) H (by omega) (by omega)
          (by omega) (by simp [hl]), hHk, hd]
        simp only [ok_bind, keyRoot]
        split <;> simp_all [catchInvalid]

/-- C67. The complete behaviour of `verify` for every `w` in 2..7, 16..31 and 256..511: as for the four supported
values, with the chain positions cut out of the digest with the mask `w - 1`. -/
theorem C67_verify_spec (S : Sha256) (msg sig epk : Bytes) (w : Nat) (hw : Spec.UsableW w) :
    verify S msg sig epk w =
      if WellFormed w sig epk then
        match HashFn.ofNat? (keyHash epk) with
        | some hf => ok (decide (Spec.rootFromSigAny (hf.prim S) w (keyHeight epk) (keyRoot epk) (keySeed epk) msg sig =
            keyRoot epk))
        | none => .ub
      else ok false := by
  rw [verify, verifyFull_any S msg sig epk w hw]
  split
  · split <;> rfl
  · rfl

/-- C67. For such a `w` the constructor succeeds, and a message signed at any index below `2^height` verifies (heights up
to 24, where the tree of `XmssBasic::sign` fits). -/
theorem C67_sign_verifies (S : Sha256) (seed : Bytes) (height : UInt8) (hf : HashFn) (af w : Nat) (hw : Spec.UsableW w)
    (hs : seed.length = 48) (hh : GoodHeight height) (h24 : height.toNat ≤ 24) :
    ∃ o pk, XmssBasic.new S seed height hf.toNat af w = ok o ∧ o.getPK = ok pk ∧
      ∀ i, i < 2 ^ height.toNat → ∀ msg, ∃ o1 sig o2, o.setIndex i = ok (i, o1) ∧
        XmssBasic.sign S o1 msg = ok (sig, o2) ∧ sigIndex sig = i ∧ verify S msg sig pk w = ok true ∧
        o2.getIndex = ok (i + 1) ∧ o2.getPK = ok pk := by
  obtain ⟨p, k, q, hp, hnew⟩ := basicNew_any S seed height hf af w hw hs hh
  refine ⟨_, _, hnew, getPK_eq (keyOf S hf w height.toNat (lenW_pos_any hw) seed) _ 0 rfl, ?_⟩
  intro i hi msg
  have h32 : i + 1 < 2 ^ 32 := by
    have : 2 ^ height.toNat ≤ 2 ^ 24 := Nat.pow_le_pow_right (by omega) h24
    omega
  refine ⟨_, _, _, baseSetIndex_eq (keyOf S hf w height.toNat (lenW_pos_any hw) seed) _ 0 i rfl (by omega),
    basicSign_any S hf hp _ rfl rfl (by simpa using (by omega : height.toNat ≤ 25))
      (keyOf S hf w height.toNat (lenW_pos_any hw) seed) rfl i hi rfl msg, ?_, ?_, ?_, ?_⟩
  · rw [sigIndex, Spec.signatureAny]
    simp only [List.append_assoc]
    rw [List.take_append, List.take_of_length_le (Nat.le_of_eq (length_be ..)), length_be, Nat.sub_self, List.take_zero,
      List.append_nil, byteVal_be, Nat.mod_eq_of_lt (by omega)]
  · obtain ⟨f1, f2, f3, f4, f5⟩ := pk_fields (keyOf S hf w height.toNat (lenW_pos_any hw) seed)
      { params := ⟨p, height.toNat⟩, hashFunction := hf.toNat, addrFormat := af, height := height,
        sk := (keyOf S hf w height.toNat (lenW_pos_any hw) seed).sk 0, seed := seed } hf rfl hh
    rw [C67_verify_spec S msg _ _ w hw, if_pos]
    · rw [f2, ofNat?_toNat]
      simp only [f3, f4, f5]
      have := rootFromSigAny_signatureAny S hf hp height.toNat (by omega)
        (keyOf S hf w height.toNat (lenW_pos_any hw) seed).skSeed
        (keyOf S hf w height.toNat (lenW_pos_any hw) seed).skPrf
        (keyOf S hf w height.toNat (lenW_pos_any hw) seed).ps i hi msg
      simp only [keyOf] at this ⊢
      simp [this]
    · exact ⟨f1, by rw [f3]; exact hh.1, by rw [f3, length_signatureAny S hf hp, hp.len]⟩
  · exact (keyOf S hf w height.toNat (lenW_pos_any hw) seed).getIndex _ (i + 1) rfl h32
  · exact getPK_eq (keyOf S hf w height.toNat (lenW_pos_any hw) seed) _ (i + 1) rfl

/-! ## Which bits of the digest count -/

theorem foldr_or_and (l : List Nat) (x : Nat) (m : Nat) (hm : m ∈ l) : (x &&& l.foldr (· ||| ·) 0) &&& m = x &&& m := by
  apply Nat.eq_of_testBit_eq
  intro i
  have : m.testBit i = true → (l.foldr (· ||| ·) 0).testBit i = true := by
    intro h
    induction l with
    | nil => cases hm
    | cons a l ih =>
      rw [List.foldr_cons, Nat.testBit_or]
      rcases List.mem_cons.mp hm with rfl | hm
      · simp [h]
      · simp [ih hm]
  simp only [Nat.testBit_and]
  cases h : m.testBit i
  · simp
  · simp [this h]

/-- The position cut out at offset `s` depends on the bits under the shifted mask only. -/
theorem cut_masked (x m s : Nat) : (x / 2 ^ s) &&& m = (x &&& (m * 2 ^ s)) / 2 ^ s := by
  rw [← Nat.shiftRight_eq_div_pow, ← Nat.shiftRight_eq_div_pow, Nat.shiftRight_and_distrib, ← Nat.shiftLeft_eq,
    Nat.shiftLeft_shiftRight]

theorem lgW_usable {w : Nat} (hw : Spec.UsableW w) : 1 ≤ Spec.lgW w ∧ Spec.lgW w * (8 / Spec.lgW w) = 8 := by
  have := usable_log hw
  rw [Spec.lgW]
  rcases this with h | h | h | h <;> rw [h.1] <;> decide

theorem cutByte_masked {w : Nat} (hw : Spec.UsableW w) (b : UInt8) :
    Spec.cutByte w b = (List.range (8 / Spec.lgW w)).map fun j =>
      ((b.toNat &&& Spec.seenBits w) / 2 ^ (8 - Spec.lgW w * (j + 1))) &&& (w - 1) := by
  obtain ⟨h1, h2⟩ := lgW_usable hw
  apply List.map_congr_left
  intro j hj
  have hj := List.mem_range.mp hj
  rw [cut_masked, cut_masked (b.toNat &&& _)]
  congr 1
  symm
  apply foldr_or_and
  refine List.mem_map.mpr ⟨8 / Spec.lgW w - (j + 1), List.mem_range.mpr (by omega), ?_⟩
  congr 2
  rw [Nat.mul_sub, h2]

/-- The positions of a digest depend on the seen bits only. -/
theorem positions_masked {w : Nat} (hw : Spec.UsableW w) (m m' : Bytes)
    (h : m.map (fun b => b.toNat &&& Spec.seenBits w) = m'.map (fun b => b.toNat &&& Spec.seenBits w)) :
    Spec.positions w m = Spec.positions w m' := by
  have key : ∀ l : Bytes, l.flatMap (Spec.cutByte w) = (l.map fun b => b.toNat &&& Spec.seenBits w).flatMap fun x =>
      (List.range (8 / Spec.lgW w)).map fun j => (x / 2 ^ (8 - Spec.lgW w * (j + 1))) &&& (w - 1) := by
    intro l
    induction l with
    | nil => rfl
    | cons b l ih => rw [List.flatMap_cons, ih, List.map_cons, List.flatMap_cons, cutByte_masked hw]
  have e : m.flatMap (Spec.cutByte w) = m'.flatMap (Spec.cutByte w) := by rw [key, key, h]
  simp only [Spec.positions, e]

theorem foldr_or_testBit (l : List Nat) (i : Nat) (h : (l.foldr (· ||| ·) 0).testBit i = true) :
    ∃ m ∈ l, m.testBit i = true := by
  induction l with
  | nil => simp at h
  | cons a l ih =>
    rw [List.foldr_cons, Nat.testBit_or, Bool.or_eq_true] at h
    rcases h with h | h
    · exact ⟨a, by simp, h⟩
    · obtain ⟨m, hm, e⟩ := ih h
      exact ⟨m, by simp [hm], e⟩

theorem masked_of_cutByte {w : Nat} (hw : Spec.UsableW w) (b b' : UInt8) (h : Spec.cutByte w b = Spec.cutByte w b') :
    b.toNat &&& Spec.seenBits w = b'.toNat &&& Spec.seenBits w := by
  obtain ⟨h1, h2⟩ := lgW_usable hw
  apply Nat.eq_of_testBit_eq
  intro i
  rw [Nat.testBit_and, Nat.testBit_and]
  cases hs : (Spec.seenBits w).testBit i
  · simp
  · obtain ⟨m, hm, e⟩ := foldr_or_testBit _ i hs
    obtain ⟨t, ht, rfl⟩ := List.mem_map.mp hm
    have ht := List.mem_range.mp ht
    have hj : 8 / Spec.lgW w - (t + 1) < 8 / Spec.lgW w := by omega
    have hget := congrArg (fun l => l[8 / Spec.lgW w - (t + 1)]?) h
    simp only [Spec.cutByte, List.getElem?_map, List.getElem?_range hj, Option.map_some, Option.some.injEq] at hget
    have hexp : 8 - Spec.lgW w * (8 / Spec.lgW w - (t + 1) + 1) = Spec.lgW w * t := by
      rw [show 8 / Spec.lgW w - (t + 1) + 1 = 8 / Spec.lgW w - t by omega, Nat.mul_sub, h2]
      have : Spec.lgW w * t ≤ 8 := by rw [← h2]; exact Nat.mul_le_mul_left _ (by omega)
      omega
    rw [hexp] at hget
    have hb := congrArg (fun x => x.testBit (i - Spec.lgW w * t)) hget
    rw [← Nat.shiftLeft_eq, Nat.testBit_shiftLeft, Bool.and_eq_true, decide_eq_true_eq] at e
    simp only [Nat.testBit_and, ← Nat.shiftRight_eq_div_pow, Nat.testBit_shiftRight, e.2, Bool.and_true] at hb
    rw [show Spec.lgW w * t + (i - Spec.lgW w * t) = i by omega] at hb
    simp [hb]

theorem length_cutByte (w : Nat) (b : UInt8) : (Spec.cutByte w b).length = 8 / Spec.lgW w := by
  simp [Spec.cutByte]

/-- C67. The chain positions of a digest say exactly the seen bits of its bytes: two digests have the same positions if
and only if they agree on these bits. -/
theorem C67_bits_exact (w : Nat) (hw : Spec.UsableW w) (m m' : Bytes) (hm : m.length = 32) (hm' : m'.length = 32) :
    Spec.positions w m = Spec.positions w m' ↔
      m.map (fun b => b.toNat &&& Spec.seenBits w) = m'.map (fun b => b.toNat &&& Spec.seenBits w) := by
  refine ⟨fun h => ?_, positions_masked hw m m'⟩
  have hll : m.length = m'.length := by omega
  have hlen : ∀ l : Bytes, (l.flatMap (Spec.cutByte w)).length = 8 / Spec.lgW w * l.length := by
    intro l
    induction l with
    | nil => rfl
    | cons b l ih => rw [List.flatMap_cons, List.length_append, ih, length_cutByte, List.length_cons, Nat.mul_succ]; omega
  have h1 : m.flatMap (Spec.cutByte w) = m'.flatMap (Spec.cutByte w) := by
    rw [Spec.positions, Spec.positions] at h
    exact (List.append_inj h (by rw [hlen, hlen, hll])).1
  clear h hm hm'
  induction m generalizing m' with
  | nil =>
    cases m' with
    | nil => rfl
    | cons => cases hll
  | cons b m ih =>
    cases m' with
    | nil => cases hll
    | cons b' m' =>
      rw [List.flatMap_cons, List.flatMap_cons] at h1
      obtain ⟨e1, e2⟩ := List.append_inj h1 (by rw [length_cutByte, length_cutByte])
      rw [List.map_cons, List.map_cons, masked_of_cutByte hw b b' e1, ih m' (by simpa using hll) e2]

/-- C67. For the four supported values the positions are those of RFC 8391. -/
theorem C67_supported_agree (w : Nat) (hw : w = 2 ∨ w = 4 ∨ w = 16 ∨ w = 256) (m : Bytes) (hm : m.length = 32) :
    Spec.positions w m = Spec.wotsDigits w m := by
  have hu : Spec.UsableW w := by rcases hw with rfl | rfl | rfl | rfl <;> decide
  obtain ⟨p, k, q, hp⟩ := anyParams hu
  obtain ⟨k', q', hs⟩ := specParams_of hw hp.set
  have h1 := signDigits_any hp m hm
  rw [signDigits_spec hs m hm] at h1
  injection h1 with h1
  exact h1.symm

/-- C67. The answer of `verify` depends on the message only through the bits `seenBits w` of the bytes of its digest:
two messages whose digests (under the randomiser and the index of the signature and the root of the key) agree on these
bits are answered alike. -/
theorem C67_bits_ignored (S : Sha256) (msg msg' sig epk : Bytes) (w : Nat) (hw : Spec.UsableW w)
    (h : ∀ hf, HashFn.ofNat? (keyHash epk) = some hf →
      (Spec.digest (hf.prim S) ((sig.drop 4).take 32) (keyRoot epk) (sigIndex sig) msg).map
        (fun b => b.toNat &&& Spec.seenBits w) =
      (Spec.digest (hf.prim S) ((sig.drop 4).take 32) (keyRoot epk) (sigIndex sig) msg').map
        (fun b => b.toNat &&& Spec.seenBits w)) :
    verify S msg sig epk w = verify S msg' sig epk w := by
  rw [C67_verify_spec S msg sig epk w hw, C67_verify_spec S msg' sig epk w hw]
  split
  · split
    · rename_i hf hof
      have := positions_masked hw _ _ (h hf hof)
      have e : Spec.rootFromSigAny (hf.prim S) w (keyHeight epk) (keyRoot epk) (keySeed epk) msg sig =
          Spec.rootFromSigAny (hf.prim S) w (keyHeight epk) (keyRoot epk) (keySeed epk) msg' sig := by
        simp only [Spec.rootFromSigAny]
        rw [show Spec.byteVal (sig.take 4) = sigIndex sig from rfl, this]
      rw [e]
    · rfl
  · rfl

/-- C67. A bit of a byte not under the mask is lost for every usable `w` that is not a power of two; for the powers of
two all eight bits count. -/
theorem C67_lost_bits (w : Nat) (hw : Spec.UsableW w) :
    (∀ j < 8, (Spec.seenBits w).testBit j = true) ↔ w = 2 ∨ w = 4 ∨ w = 16 ∨ w = 256 := by
  have h : ∀ w < 512, Spec.UsableW w →
      ((∀ j < 8, (Spec.seenBits w).testBit j = true) ↔ w = 2 ∨ w = 4 ∨ w = 16 ∨ w = 256) := by decide +kernel
  exact h w (by rcases hw with h | h | h <;> omega) hw

theorem seen257 : Spec.seenBits 257 = 256 := by decide +kernel

theorem usable257 : Spec.UsableW 257 := by decide

/-- C67. With `w = 257` the message does not matter at all: `verify` answers the same for every message. -/
theorem C67_w257 (S : Sha256) (msg msg' sig epk : Bytes) : verify S msg sig epk 257 = verify S msg' sig epk 257 := by
  apply C67_bits_ignored S msg msg' sig epk 257 usable257
  intro hf _
  have h0 : ∀ b : UInt8, b.toNat &&& Spec.seenBits 257 = 0 := by
    intro b
    rw [seen257]
    have h := b.toNat_lt
    apply Nat.eq_of_testBit_eq
    intro i
    rw [show (256 : Nat) = 2 ^ 8 from rfl, Nat.testBit_and, Nat.testBit_two_pow, Nat.zero_testBit]
    by_cases hi : 8 = i
    · subst hi
      rw [Nat.testBit_lt_two_pow (by omega)]; rfl
    · simp [hi]
  apply List.ext_getElem
  · simp only [List.length_map, Spec.digest]
    rw [length_Hmsg, length_Hmsg]
  · intro i h1 h2
    simp only [List.getElem_map, h0]

/-- C67. With `w = 17` one bit of each byte counts: two digests have the same chain positions if and only if their bytes
agree in bit 4. -/
theorem C67_w17 (m m' : Bytes) (hm : m.length = 32) (hm' : m'.length = 32) :
    Spec.positions 17 m = Spec.positions 17 m' ↔ m.map (fun b => b.toNat.testBit 4) = m'.map (fun b => b.toNat.testBit 4) := by
  have hf : ∀ b : UInt8, b.toNat &&& Spec.seenBits 17 = if b.toNat.testBit 4 then 16 else 0 := by
    intro b
    rw [show Spec.seenBits 17 = 2 ^ 4 + 2 ^ 8 by decide +kernel]
    have h := b.toNat_lt
    apply Nat.eq_of_testBit_eq
    intro i
    have h1 : (2 ^ 4 + 2 ^ 8 : Nat) = 2 ^ 4 ||| 2 ^ 8 := by decide
    rw [h1, Nat.testBit_and, Nat.testBit_or, Nat.testBit_two_pow, Nat.testBit_two_pow]
    by_cases hi : 8 ≤ i
    · rw [Nat.testBit_lt_two_pow (Nat.lt_of_lt_of_le h (Nat.pow_le_pow_right (by omega) hi)), Bool.false_and]
      split
      · rw [show (16 : Nat) = 2 ^ 4 from rfl, Nat.testBit_two_pow]; simp; omega
      · simp
    · by_cases h4 : 4 = i
      · subst h4
        cases b.toNat.testBit 4 <;> decide
      · simp only [h4, show ¬ 8 = i by omega, decide_false, Bool.or_self, Bool.and_false]
        split
        · rw [show (16 : Nat) = 2 ^ 4 from rfl, Nat.testBit_two_pow]; simp [h4]
        · simp
  rw [C67_bits_exact 17 (by decide) m m' hm hm']
  simp only [hf]
  constructor
  · intro h
    have := congrArg (List.map fun x : Nat => decide (x = 16)) h
    rw [List.map_map, List.map_map] at this
    have hc : ((fun x : Nat => decide (x = 16)) ∘ fun b : UInt8 => if b.toNat.testBit 4 then 16 else 0) = fun b => b.toNat.testBit 4 := by
      funext b
      simp only [Function.comp]
      by_cases hb : b.toNat.testBit 4 = true
      · simp [hb]
      · simp [hb]
    rw [hc] at this
    exact this
  · intro h
    have := congrArg (List.map fun x : Bool => if x then 16 else 0) h
    rw [List.map_map, List.map_map] at this
    exact this

/-- C67, refuted: the natural property that a signature authenticates its message. With `w = 257` one signature of any
message, by any key, is accepted for every message. -/
theorem C67_authenticates_refuted (S : Sha256) (seed : Bytes) (height : UInt8) (hf : HashFn) (af : Nat)
    (hs : seed.length = 48) (hh : GoodHeight height) (h24 : height.toNat ≤ 24) (msg : Bytes) :
    ∃ o pk sig o', XmssBasic.new S seed height hf.toNat af 257 = ok o ∧ o.getPK = ok pk ∧
      XmssBasic.sign S o msg = ok (sig, o') ∧ ∀ msg', verify S msg' sig pk 257 = ok true := by
  obtain ⟨p, k, q, hp, hnew⟩ := basicNew_any S seed height hf af 257 usable257 hs hh
  obtain ⟨o, pk, e1, e2, h⟩ := C67_sign_verifies S seed height hf af 257 usable257 hs hh h24
  obtain ⟨o1, sig, o2, e3, e4, _, e6, _⟩ := h 0 (Nat.two_pow_pos _) msg
  refine ⟨o, pk, sig, o2, e1, e2, ?_, fun msg' => by rw [C67_w257 S msg' msg, e6]⟩
  rw [hnew] at e1
  cases e1
  rw [baseSetIndex_eq (keyOf S hf 257 height.toNat (lenW_pos_any usable257) seed) _ 0 0 rfl (by omega)] at e3
  cases e3
  exact e4

/-! ## C46: every `w` -/

/-- C46. The constructor for every `w` whatsoever, with a 48-byte seed and a valid height: it is undefined exactly for
the values in `CrashW`, and yields an object for all others. -/
theorem C46_ctor_total (S : Sha256) (seed : Bytes) (height : UInt8) (hf : HashFn) (af w : Nat) (hs : seed.length = 48)
    (hh : GoodHeight height) :
    (Spec.CrashW w → XmssBasic.new S seed height hf.toNat af w = .ub) ∧
    (¬ Spec.CrashW w → ∃ o, XmssBasic.new S seed height hf.toNat af w = ok o) := by
  constructor
  · intro hc
    obtain ⟨h4, h30, he⟩ := hh
    have hc' : ¬ (2 ≥ height.toNat ∨ (height.toNat - 2) % 2 ≠ 0) := by omega
    simp only [XmssBasic.new, baseCtorCheck, hs, ne_eq, not_true, if_false, show ¬ height.toNat > 254 by omega, ok_bind]
    rw [if_neg hc', xmssSetParams, if_neg hc', wotsSetParams_crash hc]
    rfl
  · intro hc
    by_cases hu : Spec.UsableW w
    · obtain ⟨p, k, q, hp, hnew⟩ := basicNew_any S seed height hf af w hu hs hh
      exact ⟨_, hnew⟩
    · have hb : BadW w := by rw [BadW]; rw [Spec.UsableW] at hu; rw [Spec.CrashW] at hc; omega
      obtain ⟨o, ho, _⟩ := C46_basic_bad_w S seed height hf af w hb hc hs hh
      exact ⟨o, ho⟩

/-- C46. The first signature of a fresh object, for every `w` for which there is one (heights up to 24): it is returned
if `w` is in 2..7, 16..31 or 256..511, and undefined for every other `w`. -/
theorem C46_sign_total (S : Sha256) (seed : Bytes) (height : UInt8) (hf : HashFn) (af w : Nat) (hs : seed.length = 48)
    (hh : GoodHeight height) (h24 : height.toNat ≤ 24) (o : XmssBase)
    (ho : XmssBasic.new S seed height hf.toNat af w = ok o) (msg : Bytes) :
    (Spec.UsableW w → ∃ sig o', XmssBasic.sign S o msg = ok (sig, o')) ∧
    (¬ Spec.UsableW w → XmssBasic.sign S o msg = .ub) := by
  constructor
  · intro hu
    obtain ⟨p, k, q, hp, hnew⟩ := basicNew_any S seed height hf af w hu hs hh
    rw [hnew] at ho
    cases ho
    exact ⟨_, _, basicSign_any S hf hp _ rfl rfl (by simpa using (by omega : height.toNat ≤ 25))
      (keyOf S hf w height.toNat (lenW_pos_any hu) seed) rfl 0 (Nat.two_pow_pos _) rfl msg⟩
  · intro hu
    have hc : ¬ Spec.CrashW w := by
      intro hc
      rw [(C46_ctor_total S seed height hf af w hs hh).1 hc] at ho
      cases ho
    have hb : BadW w := by rw [BadW]; rw [Spec.UsableW] at hu; rw [Spec.CrashW] at hc; omega
    obtain ⟨o', ho', h⟩ := C46_basic_bad_w S seed height hf af w hb hc hs hh
    rw [ho] at ho'
    cases ho'
    exact h msg

/-- C46. `verify` for a `w` in `CrashW`: undefined for every 67-byte key, false for keys of other lengths. -/
theorem C46_verify_crash (S : Sha256) (msg sig epk : Bytes) (w : Nat) (hc : Spec.CrashW w) :
    verify S msg sig epk w = if epk.length = 67 then .ub else ok false := by
  rw [verify, verifyFull]
  by_cases hl : epk.length = 67
  · simp only [hl, ne_eq, not_true, if_false, calculateSignatureBaseSize, wotsSetParams_crash hc, ub_bind, if_true]
    rfl
  · rw [if_pos hl, if_neg hl]; rfl

/-- The two last classes are inhabited, and the four classes are apart. -/
example : Spec.CrashW 0 ∧ Spec.CrashW 1 ∧ Spec.CrashW 4294967295 ∧ Spec.CrashW 1610612737 ∧ ¬ Spec.CrashW 8 ∧ ¬ Spec.UsableW 8 ∧ BadW 2000000000 ∧
    ¬ Spec.CrashW 2000000000 := ⟨by decide, by decide, by decide, by decide, by decide, by decide, Or.inr (Or.inr (by omega)),
  by decide⟩

/-- Bits of a digest byte that count, for some `w`: with 3 and 31 the lowest bit is lost, with 5 only bits 2, 4 and 6
count, with 17 only bit 4, with 257 none. -/
example : Spec.seenBits 3 % 256 = 254 ∧ Spec.seenBits 5 % 256 = 84 ∧ Spec.seenBits 17 % 256 = 16 ∧
    Spec.seenBits 31 % 256 = 254 ∧ Spec.seenBits 257 % 256 = 0 ∧ Spec.seenBits 16 = 255 := by decide +kernel

/-- Two different digests with the same positions for `w = 17`. -/
example : Spec.positions 17 (List.replicate 32 0x10) = Spec.positions 17 (List.replicate 32 0x3f) :=
  (C67_bits_exact 17 (by decide) _ _ (by decide) (by decide)).mpr (by decide +kernel)

/-- The hypotheses are met, for each of the three ranges. -/
example : Spec.UsableW 3 ∧ Spec.UsableW 31 ∧ Spec.UsableW 257 ∧ ¬ Spec.UsableW 8 := by decide

example : ∃ o pk sig o', XmssBasic.new toySha zeroSeed 4 (HashFn.toNat .shake_128) 0 257 = ok o ∧ o.getPK = ok pk ∧
    XmssBasic.sign toySha o [1, 2, 3] = ok (sig, o') ∧ verify toySha [9] sig pk 257 = ok true := by
  obtain ⟨o, pk, sig, o', h1, h2, h3, h4⟩ := C67_authenticates_refuted toySha zeroSeed 4 .shake_128 0 (by decide)
    goodHeight4 (by decide) [1, 2, 3]
  exact ⟨o, pk, sig, o', h1, h2, h3, h4 _⟩

end Qrl.Props
