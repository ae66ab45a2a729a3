import Verif.Props.Fast
import Verif.Spec.LossyW
/-!
# C46: Winternitz parameters outside the supported set

`XmssBasic`'s constructor and the static `verify` take any `uint32_t w`. `base_w` shifts by a negative amount whenever
`⌊log2 w⌋` does not divide 8, so for such a `w` the object can be constructed but not used.
-/

namespace Qrl.Props

open Outcome

/-- `w` is in a range where `⌊log2 w⌋` is 3, 5, 6, 7 or at least 9, that is, does not divide 8. -/
def BadW (w : Nat) : Prop := (8 ≤ w ∧ w < 16) ∨ (32 ≤ w ∧ w < 256) ∨ 512 ≤ w

theorem badW_log {w : Nat} (h : BadW w) : Nat.log2 w = 3 ∨ Nat.log2 w = 5 ∨ Nat.log2 w = 6 ∨ Nat.log2 w = 7 ∨
    9 ≤ Nat.log2 w := by
  have hw : w ≠ 0 := by rcases h with h | h | h <;> omega
  rcases h with ⟨h1, h2⟩ | ⟨h1, h2⟩ | h
  · have a := (Nat.le_log2 hw (k := 3)).mpr (by omega)
    have b := (Nat.log2_lt hw (k := 4)).mpr (by omega)
    omega
  · have a := (Nat.le_log2 hw (k := 5)).mpr (by omega)
    have b := (Nat.log2_lt hw (k := 8)).mpr (by omega)
    omega
  · have a := (Nat.le_log2 hw (k := 9)).mpr (by omega)
    omega

/-- What `wots_set_params` yields, if anything. -/
theorem wotsSetParams_ok {w : Nat} {p : WotsParams} (h : wotsSetParams w = ok p) :
    p.w = w ∧ p.logW = Nat.log2 w ∧ p.len1 = 256 / Nat.log2 w ∧ 1 ≤ p.len ∧ w < 2 ^ 31 ∧ w ≠ 0 ∧
      p.keysize = p.len * 32 := by
  rw [wotsSetParams] at h
  split at h
  · cases h
  · rename_i h0
    dsimp only at h
    split at h
    · cases h
    · split at h
      · cases h
      · cases h
        refine ⟨rfl, rfl, rfl, ?_, by omega, by omega, rfl⟩
        exact Nat.le_add_left 1 _

theorem baseW_bad {w : Nat} {p : WotsParams} (h : wotsSetParams w = ok p) (hb : BadW w) (msg : Bytes)
    (hm : msg ≠ []) : baseW p p.len1 msg = ub := by
  obtain ⟨_, hl, h1, _, h31, h0, _⟩ := wotsSetParams_ok h
  have hlog := badW_log hb
  have hlt := (Nat.log2_lt h0 (k := 31)).mpr h31
  obtain ⟨b, rest, rfl⟩ : ∃ b rest, msg = b :: rest := by
    cases msg with
    | nil => exact absurd rfl hm
    | cons b rest => exact ⟨b, rest, rfl⟩
  obtain ⟨m, hm⟩ : ∃ m, p.len1 = m + 3 := ⟨p.len1 - 3, by
    have : 3 ≤ 256 / Nat.log2 w := (Nat.le_div_iff_mul_le (by omega)).mpr (by omega)
    omega⟩
  rw [baseW, hm]
  simp only [baseWLoop, if_true, ok_bind, hl]
  rcases hlog with e | e | e | e | e
  · simp [e]
  · simp [e]
  · simp [e]
  · simp [e]
  · rw [if_pos (by omega)]

theorem digits_bad {w : Nat} {p : WotsParams} (h : wotsSetParams w = ok p) (hb : BadW w) (msg : Bytes)
    (hm : msg ≠ []) : signDigits p msg = ub ∧ verifyDigits p msg = ub := by
  rw [signDigits, verifyDigits, baseW_bad h hb msg hm]
  exact ⟨rfl, rfl⟩

theorem log2_bounds {w k : Nat} (h0 : w ≠ 0) (h : Nat.log2 w = k) : 2 ^ k ≤ w ∧ w < 2 ^ (k + 1) := by
  constructor
  · rw [← h]; exact Nat.log2_self_le h0
  · exact (Nat.log2_lt h0).mp (by omega)

theorem wotsSetParams_total (w : Nat) : if Spec.CrashW w then wotsSetParams w = ub else ∃ p, wotsSetParams w = ok p := by
  by_cases h01 : w = 0 ∨ w ≥ 2 ^ 31
  · rw [if_pos (by rcases h01 with h | h
                   · exact Or.inl (by omega)
                   · exact Or.inr (Or.inl h)), wotsSetParams, if_pos h01]
  · have hne : w ≠ 0 := by omega
    by_cases h1 : w = 1
    · subst h1; rw [if_pos (show Spec.CrashW 1 by decide)]; decide +kernel
    have hl1 : 1 ≤ Nat.log2 w := (Nat.le_log2 hne).mpr (by omega)
    have hl31 : Nat.log2 w < 31 := (Nat.log2_lt hne).mpr (by omega)
    have key : (8 * 32) / Nat.log2 w * (w - 1) % 2 ^ 32 = 0 ↔
        w = 2 ^ 29 + 1 ∨ w = 2 ^ 30 + 1 ∨ w = 2 ^ 30 + 2 ^ 29 + 1 := by
      generalize hk : Nat.log2 w = k at hl1 hl31
      obtain ⟨b1, b2⟩ := log2_bounds hne hk
      clear hk
      by_cases h28 : k < 28
      · have hb : ∀ k < 28, 1 ≤ k → 1 ≤ 8 * 32 / k ∧ 8 * 32 / k * 2 ^ (k + 1) ≤ 2 ^ 32 := by decide
        obtain ⟨a1, a2⟩ := hb k h28 hl1
        have a3 : 8 * 32 / k * (w - 1) < 8 * 32 / k * 2 ^ (k + 1) := Nat.mul_lt_mul_of_pos_left (by omega) a1
        have a4 : 1 * 1 ≤ 8 * 32 / k * (w - 1) := Nat.mul_le_mul a1 (by omega)
        have a5 : 2 ^ (k + 1) ≤ 2 ^ 28 := Nat.pow_le_pow_right (by omega) (by omega)
        rw [Nat.mod_eq_of_lt (by omega)]
        omega
      · have hcases : k = 28 ∨ k = 29 ∨ k = 30 := by omega
        rcases hcases with rfl | rfl | rfl
        · simp only [Nat.reduceMul, Nat.reduceDiv, Nat.reducePow, Nat.reduceAdd] at b1 b2 ⊢; omega
        · simp only [Nat.reduceMul, Nat.reduceDiv, Nat.reducePow, Nat.reduceAdd] at b1 b2 ⊢; omega
        · simp only [Nat.reduceMul, Nat.reduceDiv, Nat.reducePow, Nat.reduceAdd] at b1 b2 ⊢; omega
    have hc : Spec.CrashW w ↔ (w = 2 ^ 29 + 1 ∨ w = 2 ^ 30 + 1 ∨ w = 2 ^ 30 + 2 ^ 29 + 1) := by
      rw [Spec.CrashW]; omega
    rw [wotsSetParams, if_neg h01]
    simp only
    rw [if_neg (show ¬ Nat.log2 w = 0 by omega)]
    by_cases hp : (8 * 32) / Nat.log2 w * (w - 1) % 2 ^ 32 = 0
    · rw [if_pos (hc.mpr (key.mp hp)), if_pos hp]
    · rw [if_neg (fun h => hp (key.mpr (hc.mp h))), if_neg hp]
      exact ⟨_, rfl⟩

theorem wotsSetParams_fine {w : Nat} (h : ¬ Spec.CrashW w) : ∃ p, wotsSetParams w = ok p := by
  have := wotsSetParams_total w
  rwa [if_neg h] at this

theorem wotsSetParams_crash {w : Nat} (h : Spec.CrashW w) : wotsSetParams w = ub := by
  have := wotsSetParams_total w
  rwa [if_pos h] at this

/-- C46. With a `w` between 8 and 15, 32 and 255, or from 512 on (but not one of `CrashW`) the `XmssBasic` constructor succeeds, but signing
any message is undefined behaviour: `base_w` shifts by a negative amount. -/
theorem C46_basic_bad_w (S : Sha256) (seed : Bytes) (height : UInt8) (hf : HashFn) (af w : Nat) (hb : BadW w)
    (hw : ¬ Spec.CrashW w) (hs : seed.length = 48) (hh : GoodHeight height) :
    ∃ o, XmssBasic.new S seed height hf.toNat af w = ok o ∧ ∀ msg, XmssBasic.sign S o msg = .ub := by
  obtain ⟨p, hp⟩ := wotsSetParams_fine hw
  obtain ⟨hpw, hl, h1, hlen, _, _, hks⟩ := wotsSetParams_ok hp
  obtain ⟨h4, h30, he⟩ := hh
  have hc : ¬ (2 ≥ height.toNat ∨ (height.toNat - 2) % 2 ≠ 0) := by omega
  have hgen0 : xmssGenkeypair S hf ⟨p, height.toNat⟩ seed = ok (idxBytes 0 ++ shake256 96 seed ++
      Spec.node (hf.prim S) p.w p.len ((shake256 96 seed).take 32) ((shake256 96 seed).drop 64) height.toNat 0) := by
    have h48 : (seed.drop 0).take 48 = seed := by simp [← hs]
    rw [xmssGenkeypair, slice_eq_ok (by omega), ok_bind, h48]
    simp only
    rw [treehash_eq S hf ⟨p, height.toNat⟩ _ _ hlen height.toNat (by omega) 0 0 0 0 0, ok_bind]
  have hgen := hgen0
  rw [hpw] at hgen
  refine ⟨{ params := ⟨p, height.toNat⟩, hashFunction := hf.toNat, addrFormat := af, height := height, sk := idxBytes 0 ++ shake256 96 seed ++
      Spec.node (hf.prim S) w p.len ((shake256 96 seed).take 32) ((shake256 96 seed).drop 64) height.toNat 0, seed := seed }, ?_, ?_⟩
  · simp only [XmssBasic.new, baseCtorCheck, hs, ne_eq, not_true, if_false, show ¬ height.toNat > 254 by omega, ok_bind]
    rw [if_neg hc, xmssSetParams, if_neg hc, hp, ok_bind, ok_bind, withHash, ofNat?_toNat]
    simp only
    rw [hgen]
    rfl
  · intro msg
    rw [XmssBasic.sign]
    simp only [XmssBase.getSignatureSize, calculateSignatureBaseSize, hpw, hp, ok_bind]
    rw [withHash, ofNat?_toNat]
    simp only
    have hL : (idxBytes 0 ++ shake256 96 seed ++ Spec.node (hf.prim S) w p.len ((shake256 96 seed).take 32)
        ((shake256 96 seed).drop 64) height.toNat 0).length = 132 := by
      rw [List.length_append, List.length_append, length_shake256, length_node S hf _ _ _ _ hlen]; rfl
    generalize (idxBytes 0 ++ shake256 96 seed ++ Spec.node (hf.prim S) w p.len ((shake256 96 seed).take 32)
        ((shake256 96 seed).drop 64) height.toNat 0) = sk at hL
    rw [xmssSignmsg, be32At_eq (by omega), ok_bind, slice_eq_ok (by omega), ok_bind, slice_eq_ok (by omega), ok_bind,
      slice_eq_ok (by omega), ok_bind]
    dsimp only
    rw [slice_eq_ok (by simp [idxBytes]; omega), ok_bind, wotsSign, (digits_bad hp hb _ _).1]
    · rfl
    · intro h0
      have := congrArg List.length h0
      rw [hMsg_eq, length_Hmsg] at this
      cases this

theorem verifysig_bad (S : Sha256) (hf : HashFn) {w : Nat} {p : WotsParams} (hp : wotsSetParams w = ok p) (hb : BadW w)
    (msg sig pk : Bytes) (h : Nat) (hsig : sig.length = 36 + 32 * p.len + 32 * h) (hpk : pk.length = 64) :
    xmssVerifysig S hf p msg sig pk h = ub := by
  simp only [xmssVerifysig, slice_eq_ok (show 32 + 32 ≤ pk.length by omega),
    slice_eq_ok (show 0 + 32 ≤ pk.length by omega), be32At_eq (show 4 ≤ sig.length by omega),
    slice_eq_ok (show 4 + 32 ≤ sig.length by omega), ok_bind,
    sliceChunks_eq sig p.len 36 (by omega)]
  rw [wotsPkFromSig, (digits_bad hp hb _ _).2]
  · rfl
  · intro h0
    have := congrArg List.length h0
    rw [hMsg_eq, length_Hmsg] at this
    cases this

/-- C46. Complete behaviour of `verify` for a `w` as above: input of the right shape for `w` (a 67-byte key naming a
height of at least 4 and a signature of the size of `getSignatureSize`) is undefined behaviour, whatever the message;
all other input is answered with false. It never answers true. -/
theorem C46_verify_bad_w (S : Sha256) (msg sig epk : Bytes) (w : Nat) (hb : BadW w) (hw : ¬ Spec.CrashW w) (base : Nat)
    (hbase : calculateSignatureBaseSize w = ok base) : verify S msg sig epk w =
      if epk.length = 67 ∧ 4 ≤ keyHeight epk ∧ sig.length = base + 32 * keyHeight epk then .ub else ok false := by
  obtain ⟨p, hp⟩ := wotsSetParams_fine hw
  obtain ⟨hpw, hlg, h1, hlen, _, _, hks⟩ := wotsSetParams_ok hp
  have hbs := hbase
  rw [calculateSignatureBaseSize, hp, ok_bind] at hbs
  cases hbs
  rw [verify, verifyFull]
  by_cases hl : epk.length = 67
  swap
  · rw [if_pos hl, if_neg (show ¬ (epk.length = 67 ∧ _ ∧ _) from fun h => hl h.1)]; rfl
  simp only [hl, ne_eq, not_true, if_false, hbase, ok_bind]
  have hkh : keyHeight epk ≤ 30 := by rw [keyHeight]; omega
  have hke : keyHeight epk % 2 = 0 := by rw [keyHeight]; omega
  have hku : (UInt8.ofNat (keyHeight epk)).toNat = keyHeight epk := by
    simp only [UInt8.toNat_ofNat']; omega
  by_cases hbig : sig.length > 4 + 32 + p.keysize + 254 * 32
  · rw [if_pos hbig, if_neg (by omega)]; rfl
  rw [if_neg hbig, fromExtendedPK_eq epk hl, ok_bind]
  simp only [sigTypeXMSS, not_true, if_false]
  rw [getHeightFromSigSize, hbase, ok_bind]
  by_cases hlt : sig.length < 4 + 32 + p.keysize
  · rw [if_pos hlt, if_neg (by omega)]; rfl
  rw [if_neg hlt]
  by_cases hm : (sig.length - 4) % 32 ≠ 0
  · rw [if_pos hm, if_neg (by omega)]; rfl
  rw [if_neg hm, ok_bind]
  generalize hH : (sig.length - (4 + 32 + p.keysize)) / 32 = H
  have hHl : H ≤ 254 := by omega
  have hsl : sig.length = 4 + 32 + 32 * p.len + 32 * H := by omega
  have hHu : (UInt8.ofNat H).toNat = H := by simp only [UInt8.toNat_ofNat']; omega
  by_cases hz : UInt8.ofNat H = 0 ∨ UInt8.ofNat (keyHeight epk) ≠ UInt8.ofNat H
  · rw [if_pos hz, if_neg]
    · rfl
    · intro hwf
      rcases hz with hz | hz
      · have := congrArg UInt8.toNat hz
        rw [hHu] at this
        have h0 : H = 0 := this
        omega
      · apply hz
        congr 1; omega
  · rw [if_neg hz]
    have hHk : keyHeight epk = H := by
      have : UInt8.ofNat (keyHeight epk) = UInt8.ofNat H := Classical.byContradiction fun h => hz (Or.inr h)
      have := congrArg UInt8.toNat this
      rw [hHu, hku] at this; exact this
    rw [hHu]
    by_cases h2H : 2 ≥ H ∨ (H - 2) % 2 ≠ 0
    · rw [if_pos h2H, if_neg (by omega)]; rfl
    · rw [if_neg h2H, if_pos ⟨trivial, by omega, by omega⟩]
      rw [xmssSetParams, if_neg h2H, hp, ok_bind, ok_bind]
      simp only [withHash]
      cases hof : HashFn.ofNat? (keyHash epk) with
      | none => rfl
      | some hf =>
        dsimp only
        rw [verifysig_bad S hf hp hb msg sig (epk.drop 3) H (by omega) (by simp [hl])]
        rfl

/-- The hypotheses are met: `w = 8`, size 36 + 32·89, height 10. -/
example : BadW 8 ∧ ¬ Spec.CrashW 8 ∧ calculateSignatureBaseSize 8 = ok (36 + 32 * 89) :=
  ⟨Or.inl ⟨by omega, by omega⟩, by decide, by decide +kernel⟩

example : verify toySha [] (List.replicate (36 + 32 * 89 + 320) 0) (1 :: 5 :: List.replicate 65 0) 8 = .ub := by
  rw [C46_verify_bad_w toySha _ _ _ 8 (Or.inl ⟨by omega, by omega⟩) (by decide) (36 + 32 * 89) (by decide +kernel), if_pos]
  decide +kernel

end Qrl.Props
