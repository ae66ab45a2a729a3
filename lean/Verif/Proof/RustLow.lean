import Verif.Model.RustLow
import Verif.Spec.RustLow
import Verif.Proof.RustVerifyAny
/-!
# The Rust crate's low-level functions on any slices
-/

namespace Qrl.Rs

open Res

variable {S : Sha256}

theorem slice_panic {l : Bytes} {off len : Nat} (h : l.length < off + len) : slice l off len = panic := by
  rw [slice, if_neg (by omega)]

theorem absorb_reads (s : KState) (r : Nat) (m : Bytes) (k : Nat) (p : UInt8) (h8 : r % 8 = 0) (hr2 : r ≤ 200) (h0 : 0 < r) :
    keccakAbsorb s r m k p =
      match Spec.shakeReads r m k with
      | some m' => ok (Qrl.keccakAbsorb s r m' p)
      | none => panic := by
  rw [Spec.shakeReads]
  by_cases h1 : k < r
  · rw [if_pos h1, keccakAbsorb, absorbLoop, dif_neg (by omega)]
    simp only [ok_bind]
    by_cases h2 : k ≤ m.length
    · rw [if_pos h2]
      have hl : (m.take k).length = k := by rw [List.length_take]; omega
      rw [padded_eq s r m p h8 hr2 k h1 h2]
      simp only
      rw [Qrl.keccakAbsorb, dif_neg (by omega)]
    · rw [if_neg h2, slice_panic (by omega)]
      rfl
  · rw [if_neg h1, keccakAbsorb, absorbLoop, dif_pos ⟨h0, by omega⟩, xorBlock_eq]
    by_cases h3 : r ≤ m.length
    · rw [if_neg (by omega)]
      simp only [ok_bind]
      rw [if_pos ⟨Nat.le_refl _, h3⟩]
      by_cases h2 : k < 2 * r
      · rw [if_pos ⟨h2, h3⟩, absorbLoop, dif_neg (by omega), keccakF_eq]
        simp only [ok_bind]
        have l1 : (m.take r).length = r := by rw [List.length_take]; omega
        rw [padded_eq _ r m p h8 hr2 (k - r) (by omega) (by omega)]
        rw [Qrl.keccakAbsorb, dif_pos ⟨h0, by rw [List.length_append, l1]; omega⟩, List.take_left' l1, List.drop_left' l1,
          Qrl.keccakAbsorb, dif_neg (by rw [List.length_take]; omega), xorBlock_congr s r (m.take r) m (by rw [List.take_take, Nat.min_self])]
      · rw [if_neg (by omega)]
        have l1 : ((m.take m.length).drop r).length = m.length - r := by rw [List.take_length, List.length_drop]
        rw [absorbLoop, dif_pos ⟨h0, by omega⟩, xorBlock_eq]
        by_cases h4 : ((m.take m.length).drop r).length < 8 * (r / 8)
        · rw [if_pos h4]; rfl
        · rw [if_neg h4]
          simp only [ok_bind]
          rw [if_neg (by omega)]
          rfl
    · rw [if_pos (by omega), if_neg (by omega)]
      rfl

theorem squeezeInto_eq (r : Nat) (k : Nat) : ∀ (h : Bytes) (s : KState),
    squeezeInto k h s r =
      if h.length < k * r then panic
      else ok ((keccakSqueezeBlocks k s r).1 ++ h.drop (k * r), (keccakSqueezeBlocks k s r).2) := by
  induction k with
  | zero => intro h s; rw [squeezeInto, if_neg (by omega), keccakSqueezeBlocks]; simp
  | succ k ih =>
    intro h s
    rw [squeezeInto]
    dsimp only
    have hm : (k + 1) * r = k * r + r := Nat.succ_mul k r
    by_cases h1 : h.length < r
    · rw [if_pos h1, if_pos (by omega)]
    · rw [if_neg h1, ih]
      by_cases h2 : h.length < (k + 1) * r
      · rw [if_pos h2, if_pos (by rw [List.length_drop]; omega)]; rfl
      · rw [if_neg h2, if_neg (by rw [List.length_drop]; omega), keccakSqueezeBlocks]
        simp only [ok_bind, List.append_assoc, List.drop_drop]
        rw [hm, Nat.add_comm]

theorem length_squeeze (r : Nat) (hr : ∀ s, (stateBytes s r).length = r) (k : Nat) : ∀ (s : KState),
    (keccakSqueezeBlocks k s r).1.length = k * r := by
  induction k with
  | zero => intro s; rw [keccakSqueezeBlocks]; simp
  | succ k ih =>
    intro s
    rw [keccakSqueezeBlocks]
    simp only [List.length_append, hr, ih]
    rw [Nat.succ_mul]; omega

/-- `shake128`, `shake256` into a buffer, in terms of the C++ functions. -/
theorem shakeInto_eq (r : Nat) (hr : ∀ s, (stateBytes s r).length = r) (h8 : r % 8 = 0) (hr2 : r ≤ 200) (h0 : 0 < r)
    (cpp : Nat → Bytes → Bytes)
    (hc : ∀ n m, cpp n m = (let (out, s) := Qrl.keccakSqueezeBlocks (n / r) (Qrl.keccakAbsorb (Vector.replicate 25 0) r m 0x1F) r
      if n % r ≠ 0 then
        let (d, _) := Qrl.keccakSqueezeBlocks 1 s r
        out ++ d.take (n % r)
      else out)) (output : Bytes) (n : Nat) (inp : Bytes) (inlen : Nat) :
    shakeInto r output n inp inlen =
      match Spec.shakeReads r inp inlen with
      | some m => if output.length < n then panic else ok (cpp n m ++ output.drop n)
      | none => panic := by
  rw [shakeInto, absorb_reads _ r inp inlen _ h8 hr2 h0]
  cases Spec.shakeReads r inp inlen with
  | none => rfl
  | some m =>
    dsimp only
    rw [ok_bind, squeezeInto_eq r, hc]
    have hd : n = n / r * r + n % r := by rw [Nat.mul_comm]; exact (Nat.div_add_mod n r).symm
    by_cases h1 : output.length < n / r * r
    · rw [if_pos h1, if_pos (by omega)]; rfl
    · rw [if_neg h1]
      simp only [ok_bind, squeeze_eq]
      by_cases h2 : n % r = 0
      · rw [if_neg (by omega), if_neg (by omega), if_neg (by omega), show n / r * r = n by omega]
      · rw [if_pos (by omega), if_pos h2]
        have hl : (Qrl.keccakSqueezeBlocks (n / r) (Qrl.keccakAbsorb (Vector.replicate 25 0) r m 0x1F) r).1.length = n / r * r := by
          rw [← squeeze_eq]; exact length_squeeze r hr _ _
        rw [List.length_append, hl, List.length_drop]
        by_cases h3 : output.length < n
        · rw [if_pos (by omega), if_pos h3]
        · rw [if_neg (by omega), if_neg h3, List.take_left' hl, List.drop_append, hl, List.drop_of_length_le (by omega), List.drop_drop]
          rw [show n / r * r + (n / r * r + n % r - n / r * r) = n by omega]
          simp

theorem hMsgLen_eq (hf : HashFn) (m : Bytes) (k : Nat) (key : Bytes) (hk : key.length = 96) :
    hMsgLen S hf m k key = if m.length < k then panic else hMsg S hf (m.take k) key := by
  rw [hMsgLen]
  by_cases h1 : k ≥ 2 ^ 32
  · rw [if_pos h1]
    by_cases h2 : m.length < k
    · rw [if_pos h2]
    · rw [if_neg h2, hMsg, if_pos (by rw [List.length_take]; omega)]
  · rw [if_neg h1, coreHash]
    by_cases h2 : m.length < k
    · rw [if_pos h2]
      by_cases h3 : k + 32 + 96 ≥ 2 ^ 32
      · rw [if_pos h3]
      · rw [if_neg h3, slice, if_pos (by omega), ok_bind, slice_panic (by omega)]; rfl
    · have hl : (m.take k).length = k := by rw [List.length_take]; omega
      have hs : slice m 0 k = slice (m.take k) 0 k := by
        rw [slice, if_pos (by omega), slice, if_pos (by omega)]; simp
      rw [if_neg h2, hMsg, hl, if_neg h1, coreHash, hs]

theorem sliceChunks_short (sig : Bytes) (k : Nat) : ∀ off, sig.length < off + 32 * k → 0 < k → sliceChunks sig off k = panic := by
  induction k with
  | zero => intro off _ h; omega
  | succ k ih =>
    intro off h _
    rw [sliceChunks]
    by_cases h1 : sig.length < off + 32
    · rw [slice_panic h1]; rfl
    · rw [slice, if_pos (by omega), ok_bind, ih (off + 32) (by omega) (by omega)]; rfl

theorem authPathLoop_short (hf : HashFn) (ps sig : Bytes) (hp : 32 ≤ ps.length) (m : Nat) : ∀ (i li off : Nat) (bl br : Bytes) (a : Adrs),
    0 < m → sig.length < off + 32 * m → authPathLoop S hf ps sig m i li off bl br a = panic := by
  induction m with
  | zero => intro i li off bl br a h; omega
  | succ m ih =>
    intro i li off bl br a _ h
    rw [authPathLoop]
    simp only [hashH_rs S hf _ ps _ hp, ok_bind]
    by_cases h1 : sig.length < off + 32
    · rw [slice_panic h1]; rfl
    · rw [slice, if_pos (by omega), ok_bind]
      have : 0 < m := by
        rcases Nat.eq_zero_or_pos m with rfl | h2
        · omega
        · exact h2
      split
      · exact ih _ _ _ _ _ _ this (by omega)
      · exact ih _ _ _ _ _ _ this (by omega)

theorem validateAuthpath_short (hf : HashFn) (leaf : Bytes) (li : Nat) (sig : Bytes) (off h : Nat) (ps : Bytes) (hp : 32 ≤ ps.length)
    (a : Adrs) (h1 : 1 ≤ h) (hs : sig.length < off + 32 * h) : validateAuthpath S hf leaf li sig off h ps a = panic := by
  rw [validateAuthpath]
  by_cases h2 : sig.length < off + 32
  · rw [slice_panic h2]; rfl
  · rw [slice, if_pos (by omega), ok_bind]
    dsimp only
    have : 0 < h - 1 := by
      rcases Nat.eq_zero_or_pos (h - 1) with h0 | h0
      · omega
      · exact h0
    split <;> (rw [authPathLoop_short hf ps sig hp (h - 1) _ _ _ _ _ _ this (by omega)]; rfl)

theorem verifyRootRaw_pos (b : Build) (hf : HashFn) (p : WotsParams) (m sig ps : Bytes) (idx h : Nat) (h1 : 1 ≤ h) :
    verifyRootRaw b S hf p m sig ps idx h = verifyRoot b S hf p m sig ps idx h := by
  have hva : ∀ x, validateAuthpathAny b S hf x idx sig (36 + p.keysize) h ps (setType {} 2) =
      validateAuthpath S hf x idx sig (36 + p.keysize) h ps (setType {} 2) := by
    intro x; rw [validateAuthpathAny.eq_def, if_neg (by omega)]
  rw [verifyRootRaw, verifyRoot]
  simp only [hva]

theorem verifyRoot_short (hf : HashFn) (b : Build) {w : Nat} (hw : Spec.RangeW w) (m : Bytes) (hm : m.length = 32)
    (sig ps : Bytes) (hps : ps.length = 32) (idx h : Nat) (h1 : 1 ≤ h) (c : sig.length < 36 + 32 * Spec.rustLen w + 32 * h) :
    verifyRoot b S hf (wotsParams w) m sig ps idx h = panic := by
  have hl : (wotsParams w).len = Spec.rustLen w := rfl
  have hk : (wotsParams w).keysize = 32 * Spec.rustLen w := Nat.mul_comm _ _
  have hpos := rustLen_pos hw
  rw [verifyRoot]
  by_cases c6 : sig.length < 36 + 32 * Spec.rustLen w
  · rw [sliceChunks_short sig _ 36 (by rw [hl]; omega) (by rw [hl]; omega)]; rfl
  · rw [sliceChunks_sim _ _ _ _ (sliceChunks_eq sig (wotsParams w).len 36 (by rw [hl]; omega)), ok_bind]
    cases hp : Spec.rustPositions b w m with
    | none =>
      rw [wotsPkFromSig, verifyDigits_rs, signDigits_none hw hm hp]
      rfl
    | some ds =>
      obtain ⟨hlen, hlt⟩ := rustPositions_props hw hm hp
      obtain ⟨x, y, z, e⟩ := wotsPkFromSig_rsAny (S := S) hf hw hm hp (Spec.chunks sig 36 (wotsParams w).len) ps hps idx 0 0 0
      rw [show wotsPkFromSig b S hf (wotsParams w) (Spec.chunks sig 36 (wotsParams w).len) m ps
        (setOTS (setType {} 0) idx) = _ from e]
      simp only [ok_bind]
      obtain ⟨x2, y2, z2, e2⟩ := lTree_eq S hf (wotsParams w) (Spec.wotsPkFromSig (hf.prim S) w ps
        idx (Spec.chunks sig 36 (wotsParams w).len) ds) ps idx 0 0 0 (rustLen_pos hw)
        (by simp only [Spec.wotsPkFromSig, List.length_map, List.length_zipIdx, List.length_zip, length_chunks, hlen, hl, Nat.min_self])
      have t := lTree_sim S hf (wotsParams w) (Spec.wotsPkFromSig (hf.prim S) w ps
        idx (Spec.chunks sig 36 (wotsParams w).len) ds) ps ⟨0, 0, 0, 1, idx, 0, 0, 0⟩ (by omega)
      rw [take32_of hps] at t
      rw [show lTree S hf (wotsParams w) (Spec.wotsPkFromSig (hf.prim S) w ps
        idx (Spec.chunks sig 36 (wotsParams w).len) ds) ps (setLtree (setType {} 1) idx) = _ from t _ e2]
      simp only [ok_bind]
      rw [validateAuthpath_short hf _ _ _ _ _ _ (by omega) _ h1 (by rw [hk]; omega)]

theorem verifyRaw_eq (hf : HashFn) (b : Build) {w : Nat} (hw : Spec.RangeW w) (m : Bytes) (k : Nat) (sig pk : Bytes) (h : Nat) (h1 : 1 ≤ h) :
    xmssVerifySigRaw b S hf (wotsParams w) m k sig pk h =
      if pk.length < 64 ∨ sig.length < 36 + 32 * Spec.rustLen w + 32 * h ∨ m.length < k then panic
      else match Spec.rustRootAny b S hf w h (pk.take 32) ((pk.drop 32).take 32) (m.take k) sig with
        | none => panic
        | some r => ok (if r = pk.take 32 then 0 else -1, m) := by
  have hl : (wotsParams w).len = Spec.rustLen w := rfl
  have hk : (wotsParams w).keysize = 32 * Spec.rustLen w := Nat.mul_comm _ _
  have hpos := rustLen_pos hw
  rw [xmssVerifySigRaw]
  by_cases c1 : pk.length < 64
  · rw [slice_panic (by omega), if_pos (Or.inl c1)]; rfl
  rw [slice, if_pos (by omega), ok_bind]
  have hps : ((pk.drop 32).take 32).length = 32 := by rw [List.length_take, List.length_drop]; omega
  by_cases c2 : sig.length < 4
  · rw [if_pos (Or.inr (Or.inl (by omega)))]
    have : be32At sig = panic := by
      match sig, c2 with
      | [], _ => rfl
      | [_], _ => rfl
      | [_, _], _ => rfl
      | [_, _, _], _ => rfl
    rw [this]; rfl
  rw [be32At_sim _ _ (be32At_eq (by omega)), ok_bind]
  by_cases c3 : sig.length < 36
  · rw [slice_panic (by omega), if_pos (Or.inr (Or.inl (by omega)))]; rfl
  rw [slice, if_pos (by omega), ok_bind, slice, if_pos (by omega), ok_bind]
  simp only [toByte_rs, toByte_eq_be, List.drop_zero]
  have hkey : ((sig.drop 4).take 32 ++ pk.take 32 ++ Spec.be 32 (Spec.byteVal (sig.take 4))).length = 96 := by
    rw [List.length_append, List.length_append, length_be, List.length_take, List.length_take, List.length_drop]; omega
  rw [hMsgLen_eq hf m k _ hkey]
  by_cases c4 : m.length < k
  · rw [if_pos c4, if_pos (Or.inr (Or.inr c4))]; rfl
  rw [if_neg c4, hMsg_rs hf (m.take k) _ hkey, Spec.rustRootAny, Spec.keyInSig]
  cases Spec.rustSigned hf ((sig.drop 4).take 32 ++ pk.take 32 ++ Spec.be 32 (Spec.byteVal (sig.take 4))) (m.take k) with
  | none =>
    by_cases c5 : pk.length < 64 ∨ sig.length < 36 + 32 * Spec.rustLen w + 32 * h ∨ m.length < k
    · rw [if_pos c5]; rfl
    · rw [if_neg c5]; rfl
  | some m' =>
    dsimp only
    rw [ok_bind, hMsg_eq, Option.bind_eq_bind, Option.bind_some]
    have hd : (Spec.Hmsg (hf.prim S) ((sig.drop 4).take 32 ++ pk.take 32 ++ Spec.be 32 (Spec.byteVal (sig.take 4))) m').length = 32 :=
      length_Hmsg ..
    rw [verifyRootRaw_pos b hf _ _ _ _ _ _ h1]
    by_cases c5 : sig.length < 36 + 32 * Spec.rustLen w + 32 * h
    · rw [if_pos (Or.inr (Or.inl c5)), verifyRoot_short hf b hw _ hd sig _ hps _ h h1 c5]
      rfl
    · rw [if_neg (by omega), verifyRoot_rsAny hf b hw _ hd sig _ hps h h1 (by omega), Spec.digest]
      cases Spec.rustPositions b w
        (Spec.Hmsg (hf.prim S) ((sig.drop 4).take 32 ++ pk.take 32 ++ Spec.be 32 (Spec.byteVal (sig.take 4))) m') with
      | none => rfl
      | some ds =>
        dsimp only
        rw [ok_bind, Option.bind_eq_bind, Option.bind_some]
        dsimp only
        rw [show 4 + 32 + (wotsParams w).len * 32 + h * 32 - 36 - (wotsParams w).keysize - h * 32 = 0 by rw [hk, hl]; omega]
        by_cases hr : Spec.rootFromPositions (hf.prim S) w h ((pk.drop 32).take 32) sig ds = pk.take 32
        · rw [if_neg (not_not.mpr hr), if_pos hr]; rfl
        · rw [if_pos hr, if_neg hr]; rfl

/-- Height 0: the loop bound wraps around and the path runs out. -/
theorem verifyRaw_zero (hf : HashFn) (b : Build) {w : Nat} (hw : Spec.RangeW w) (m : Bytes) (k : Nat) (sig pk : Bytes)
    (hs : sig.length < 2 ^ 37) : xmssVerifySigRaw b S hf (wotsParams w) m k sig pk 0 = panic := by
  rw [xmssVerifySigRaw]
  by_cases c1 : pk.length < 64
  · rw [slice_panic (by omega)]; rfl
  rw [slice, if_pos (by omega), ok_bind]
  have hps : ((pk.drop 32).take 32).length = 32 := by rw [List.length_take, List.length_drop]; omega
  by_cases c2 : sig.length < 4
  · have : be32At sig = panic := by
      match sig, c2 with
      | [], _ => rfl
      | [_], _ => rfl
      | [_, _], _ => rfl
      | [_, _, _], _ => rfl
    rw [this]; rfl
  rw [be32At_sim _ _ (be32At_eq (by omega)), ok_bind]
  by_cases c3 : sig.length < 36
  · rw [slice_panic (by omega)]; rfl
  rw [slice, if_pos (by omega), ok_bind, slice, if_pos (by omega), ok_bind]
  simp only [toByte_rs, toByte_eq_be, List.drop_zero]
  have hkey : ((sig.drop 4).take 32 ++ pk.take 32 ++ Spec.be 32 (Spec.byteVal (sig.take 4))).length = 96 := by
    rw [List.length_append, List.length_append, length_be, List.length_take, List.length_take, List.length_drop]; omega
  rw [hMsgLen_eq hf m k _ hkey]
  by_cases c4 : m.length < k
  · rw [if_pos c4]; rfl
  rw [if_neg c4, hMsg_rs hf (m.take k) _ hkey]
  cases Spec.rustSigned hf ((sig.drop 4).take 32 ++ pk.take 32 ++ Spec.be 32 (Spec.byteVal (sig.take 4))) (m.take k) with
  | none => rfl
  | some m' =>
    dsimp only
    rw [ok_bind, hMsg_eq]
    have hd : (Spec.Hmsg (hf.prim S) ((sig.drop 4).take 32 ++ pk.take 32 ++ Spec.be 32 (Spec.byteVal (sig.take 4))) m').length = 32 :=
      length_Hmsg ..
    have key : verifyRootRaw b S hf (wotsParams w) (Spec.Hmsg (hf.prim S) ((sig.drop 4).take 32 ++ pk.take 32 ++
        Spec.be 32 (Spec.byteVal (sig.take 4))) m') sig ((pk.drop 32).take 32) (Spec.byteVal (sig.take 4)) 0 = panic := by
      cases b with
      | release =>
        have := verifyRoot_short (S := S) hf .release hw _ hd sig _ hps (Spec.byteVal (sig.take 4)) (2 ^ 32) (by omega) (by omega)
        rw [← this, verifyRootRaw, verifyRoot]
        rfl
      | debug =>
        have := verifyRoot_short (S := S) hf .debug hw _ hd sig _ hps (Spec.byteVal (sig.take 4)) (2 ^ 32) (by omega) (by omega)
        rw [verifyRoot] at this
        rw [verifyRootRaw]
        cases h1 : sliceChunks sig 36 (wotsParams w).len with
        | ok ws =>
          rw [h1] at this
          rw [ok_bind] at this ⊢
          cases h2 : wotsPkFromSig .debug S hf (wotsParams w) ws (Spec.Hmsg (hf.prim S) ((sig.drop 4).take 32 ++ pk.take 32 ++
              Spec.be 32 (Spec.byteVal (sig.take 4))) m') ((pk.drop 32).take 32) (setOTS (setType {} 0) (Spec.byteVal (sig.take 4))) with
          | ok y =>
            rw [h2] at this
            rw [ok_bind] at this ⊢
            dsimp only at this ⊢
            cases h3 : lTree S hf (wotsParams w) y.1 ((pk.drop 32).take 32) (setLtree (setType {} 1) (Spec.byteVal (sig.take 4))) with
            | ok z => rfl
            | err e => rw [h3] at this; cases this
            | panic => rfl
          | err e => rw [h2] at this; cases this
          | panic => rfl
        | err e => rw [h1] at this; cases this
        | panic => rfl
    rw [key]
    rfl

end Qrl.Rs
