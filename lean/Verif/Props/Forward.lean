import Verif.Props.Forgery
import Verif.Spec.Forward
/-!
# C65: signatures with `w = 256` can be forged by hashing forward
-/

namespace Qrl.Props

open Outcome Qrl.Spec

/-- C65. For every `w`: given one accepted signature, whoever finds a message whose chain positions (for the same
randomiser and index) are all at least those of the signed message has a signature for it, without any secret. -/
theorem C65_hash_forward (S : Sha256) (msg msg' sig epk : Bytes) (w : Nat) (hw : w = 2 ∨ w = 4 ∨ w = 16 ∨ w = 256)
    (h : verify S msg sig epk w = ok true) :
    ∃ hf : HashFn, HashFn.ofNat? (keyHash epk) = some hf ∧
      ∀ ds', ds' = wotsDigits w (digest (hf.prim S) ((sig.drop 4).take 32) (keyRoot epk) (sigIndex sig) msg') →
      (∀ (ch d d' : Nat), (sigDigits (hf.prim S) w (keyRoot epk) msg sig)[ch]? = some d → ds'[ch]? = some d' → d ≤ d') →
      verify S msg' (hashForward (hf.prim S) w (keySeed epk) (sigDigits (hf.prim S) w (keyRoot epk) msg sig) ds' sig)
        epk w = ok true := by
  obtain ⟨wf, hf, hh, hr⟩ := verify_true_iff hw h
  refine ⟨hf, hh, ?_⟩
  intro ds' hds' hle
  have hG := out32 S hf
  obtain ⟨p, k, q, hp, hsp, _⟩ := base_ok hw
  have A := sigFacts hG hw (keyRoot epk) msg wf.2.2
  have hdig : (digest (hf.prim S) ((sig.drop 4).take 32) (keyRoot epk) (sigIndex sig) msg').length = 32 := hG _
  have hl' : ds'.length = lenW w := by rw [hds', length_wotsDigits hsp _ hdig, hsp.len]
  have hlt' : ∀ d ∈ ds', d < w := by rw [hds']; exact wotsDigits_lt hsp _ hdig
  have hwl := wf.2.2
  have hL : sig.length = 36 + 32 * lenW w + 32 * keyHeight epk := by omega
  generalize hds : sigDigits (hf.prim S) w (keyRoot epk) msg sig = ds at *
  have hdl : ds.length = lenW w := by have := A.dlen; rwa [hds] at this
  -- the chains of the new signature
  let cs : List Bytes := (List.range (lenW w)).map fun ch => chain (hf.prim S) (keySeed epk) (sigIndex sig) ch
    (ds.getD ch 0) (ds'.getD ch 0 - ds.getD ch 0) ((sig.drop (36 + 32 * ch)).take 32)
  have hF : hashForward (hf.prim S) w (keySeed epk) ds ds' sig =
      sig.take 36 ++ (cs.flatten ++ sig.drop (36 + 32 * lenW w)) := by
    rw [hashForward, List.append_assoc]; rfl
  have hcs : ∀ x ∈ cs, x.length = 32 := by
    intro x hx
    obtain ⟨ch, hch, rfl⟩ := List.mem_map.mp hx
    have := List.mem_range.mp hch
    exact chain_len hG _ _ _ _ _ _ (by rw [List.length_take, List.length_drop]; omega)
  have hcl : cs.length = lenW w := by simp [cs]
  have hfl : cs.flatten.length = 32 * lenW w := by
    rw [← hcl]
    clear_value cs
    clear hF hcl
    induction cs with
    | nil => rfl
    | cons a l ih =>
      rw [List.flatten_cons, List.length_append, hcs a (by simp), ih (fun x hx => hcs x (by simp [hx]))]
      simp only [List.length_cons]; omega
  have h36 : (sig.take 36).length = 36 := by rw [List.length_take]; omega
  rw [hF]
  generalize hsig' : sig.take 36 ++ (cs.flatten ++ sig.drop (36 + 32 * lenW w)) = sig'
  have t4 : sig'.take 4 = sig.take 4 := by
    rw [← hsig', List.take_append_of_le_length (by omega), List.take_take]; rfl
  have t36 : (sig'.drop 4).take 32 = (sig.drop 4).take 32 := by
    rw [← hsig', List.drop_append_of_le_length (by omega), List.take_append_of_le_length (by
      rw [List.length_drop]; omega), List.drop_take, List.take_take]; rfl
  have hc : chunks sig' 36 (lenW w) = cs := by
    rw [← hsig', ← hcl]; exact Qrl.chunks_flatten _ cs hcs _ 36 h36
  have hp' : chunks sig' (36 + 32 * lenW w) (keyHeight epk) = chunks sig (36 + 32 * lenW w) (keyHeight epk) := by
    have hdrop : sig'.drop (36 + 32 * lenW w) = sig.drop (36 + 32 * lenW w) := by
      rw [← hsig', ← List.append_assoc, List.drop_append_of_le_length (by rw [List.length_append]; omega),
        List.drop_eq_nil_of_le (by rw [List.length_append]; omega), List.nil_append]
    apply List.map_congr_left
    intro j _
    have e1 : sig'.drop (36 + 32 * lenW w + 32 * j) = (sig'.drop (36 + 32 * lenW w)).drop (32 * j) := by
      rw [List.drop_drop]
    have e2 : sig.drop (36 + 32 * lenW w + 32 * j) = (sig.drop (36 + 32 * lenW w)).drop (32 * j) := by
      rw [List.drop_drop]
    rw [e1, e2, hdrop]
  have hlen' : sig'.length = sig.length := by
    rw [← hsig', List.length_append, List.length_append, h36, hfl, List.length_drop]; omega
  have hroot : rootFromSig (hf.prim S) w (keyHeight epk) (keyRoot epk) (keySeed epk) msg' sig' = keyRoot epk := by
    refine Eq.trans ?_ hr
    simp only [rootFromSig, t4, t36, hc, hp']
    congr 2
    change Spec.wotsPkFromSig (hf.prim S) w (keySeed epk) (sigIndex sig) cs
      (wotsDigits w (digest (hf.prim S) ((sig.drop 4).take 32) (keyRoot epk) (sigIndex sig) msg')) =
      Spec.wotsPkFromSig (hf.prim S) w (keySeed epk) (sigIndex sig) (chunks sig 36 (lenW w))
      (sigDigits (hf.prim S) w (keyRoot epk) msg sig)
    rw [← hds', hds]
    apply List.ext_getElem?
    intro ch
    by_cases hch : ch < lenW w
    · have a1 : ch < cs.length := by omega
      have a2 : ch < ds'.length := by omega
      have a3 : ch < ds.length := by omega
      have a4 : ch < (chunks sig 36 (lenW w)).length := by rw [length_chunks]; exact hch
      rw [getElem_pkFromSig _ _ _ _ _ _ a1 a2, getElem_pkFromSig _ _ _ _ _ _ a4 a3]
      have hd : ds[ch] ≤ ds'[ch] := hle ch _ _ (List.getElem?_eq_getElem a3) (List.getElem?_eq_getElem a2)
      have hd' : ds'[ch] < w := hlt' _ (List.getElem_mem a2)
      have e1 : cs[ch] = chain (hf.prim S) (keySeed epk) (sigIndex sig) ch ds[ch] (ds'[ch] - ds[ch])
          ((sig.drop (36 + 32 * ch)).take 32) := by
        simp only [cs, List.getElem_map, List.getElem_range, List.getD_eq_getElem?_getD, List.getElem?_eq_getElem a3,
          List.getElem?_eq_getElem a2, Option.getD_some]
      have e2 : (chunks sig 36 (lenW w))[ch] = (sig.drop (36 + 32 * ch)).take 32 := by
        simp only [chunks, List.getElem_map, List.getElem_range]
      have e3 := chain_add (hf.prim S) (keySeed epk) (sigIndex sig) ch (ds'[ch] - ds[ch]) (w - 1 - ds'[ch]) ds[ch]
        ((sig.drop (36 + 32 * ch)).take 32)
      rw [show ds[ch] + (ds'[ch] - ds[ch]) = ds'[ch] by omega,
        show ds'[ch] - ds[ch] + (w - 1 - ds'[ch]) = w - 1 - ds[ch] by omega] at e3
      rw [e1, e2, e3]
    · rw [List.getElem?_eq_none (by rw [length_pkFromSig]; omega),
        List.getElem?_eq_none (by rw [length_pkFromSig, length_chunks]; omega)]
  rw [C20_verify_spec S msg' sig' epk w hw, if_pos ⟨wf.1, wf.2.1, by rw [hlen']; exact wf.2.2⟩, hh]
  simp only [hroot, decide_true]

/-- C65. For `w` = 2, 4 or 16 this never happens: if all chain positions of one digest are at most those of another,
the digests are equal. -/
theorem C65_checksum_protects (w : Nat) (hw : w = 2 ∨ w = 4 ∨ w = 16) (m m' : Bytes) (hm : m.length = 32)
    (hm' : m'.length = 32)
    (h : ∀ (ch d d' : Nat), (wotsDigits w m)[ch]? = some d → (wotsDigits w m')[ch]? = some d' → d ≤ d') : m = m' := by
  have hw4 : w = 2 ∨ w = 4 ∨ w = 16 ∨ w = 256 := by omega
  obtain ⟨p, k, q, hp, hsp, _⟩ := base_ok hw4
  apply Classical.byContradiction
  intro hne
  obtain ⟨ch, d, d', f1, f2, f3⟩ := C24_no_forward_forgery w hw p hp m m' hm hm' hne _ _
    (signDigits_spec hsp _ hm) (signDigits_spec hsp _ hm')
  have := h ch d d' f1 f2
  omega

/-- C65. The chain positions for `w = 256`: the 32 bytes of the digest, the checksum modulo 256, and zero. -/
theorem C65_w256_positions (m : Bytes) (hm : m.length = 32) :
    wotsDigits 256 m = m.map UInt8.toNat ++ [(m.map fun b => 255 - b.toNat).sum % 256, 0] := by
  obtain ⟨k, q, hsp⟩ := specParams_of (w := 256) (by omega) params256
  have hk : Spec.lgW 256 = 8 := by decide +kernel
  have hl1 : Spec.len1 256 = 32 := by decide +kernel
  have hl2 : Spec.len2 256 = 2 := by decide +kernel
  have e : ∀ (l : Bytes), byteDigits 8 1 l = l.map UInt8.toNat := by
    intro l
    induction l with
    | nil => rfl
    | cons b l ih =>
      have hb := b.toNat_lt
      simp only [byteDigits, List.flatMap_cons, List.map_cons] at ih ⊢
      rw [ih]
      simp [lowDigits]
  have t := fun (l : Bytes) n hn => byteDigits_take 8 1 (by omega) l n hn
  have e1 : (List.range 32).map (Spec.digit 8 m) = m.map UInt8.toNat := by
    rw [← t m 32 (by omega), e, List.take_of_length_le (by simp [hm])]
  simp only [wotsDigits, hk, hl1, hl2, e1, List.map_map]
  congr 1
  rw [show List.map ((fun d => 256 - 1 - d) ∘ UInt8.toNat) m = m.map fun b => 255 - b.toNat from rfl]
  generalize (m.map fun b => 255 - b.toNat).sum = c
  rw [← t _ 2 (by simp [Spec.be]), e]
  have hbe : Spec.be 2 (c * 2 ^ (8 - 2 * 8 % 8)) = [UInt8.ofNat c, UInt8.ofNat (c * 256)] := by
    simp [Spec.be, List.range_succ]
  rw [hbe]
  simp

/-- Raising a digest by a total of `n`. -/
theorem raise (n : Nat) : ∀ (l : Bytes), n ≤ (l.map fun b => 255 - b.toNat).sum → ∃ l' : Bytes, l'.length = l.length ∧
    (l'.map fun b => 255 - b.toNat).sum + n = (l.map fun b => 255 - b.toNat).sum ∧
    ∀ (i : Nat) (b b' : UInt8), l[i]? = some b → l'[i]? = some b' → b.toNat ≤ b'.toNat := by
  intro l
  induction l generalizing n with
  | nil => intro h; exact ⟨[], rfl, by simpa using h, by simp⟩
  | cons a l ih =>
    intro h
    simp only [List.map_cons, List.sum_cons] at h
    have ha := a.toNat_lt
    obtain ⟨l', h1, h2, h3⟩ := ih (n - min n (255 - a.toNat)) (by omega)
    refine ⟨UInt8.ofNat (a.toNat + min n (255 - a.toNat)) :: l', by simp [h1], ?_, ?_⟩
    · simp only [List.map_cons, List.sum_cons, UInt8.toNat_ofNat']
      rw [Nat.mod_eq_of_lt (by omega)]
      omega
    · intro i b b' hb hb'
      cases i with
      | zero =>
        simp only [List.getElem?_cons_zero, Option.some.injEq] at hb hb'
        subst hb; subst hb'
        simp only [UInt8.toNat_ofNat']
        rw [Nat.mod_eq_of_lt (by omega)]
        omega
      | succ i => exact h3 i b b' (by simpa using hb) (by simpa using hb')

/-- C65. For `w = 256` it happens exactly when no byte of the digest gets smaller and the checksum modulo 256 does not
get smaller. -/
theorem C65_w256_condition (m m' : Bytes) (hm : m.length = 32) (hm' : m'.length = 32) :
    (∀ (ch d d' : Nat), (wotsDigits 256 m)[ch]? = some d → (wotsDigits 256 m')[ch]? = some d' → d ≤ d') ↔
    (∀ (i : Nat) (b b' : UInt8), m[i]? = some b → m'[i]? = some b' → b.toNat ≤ b'.toNat) ∧
      (m.map fun b => 255 - b.toNat).sum % 256 ≤ (m'.map fun b => 255 - b.toNat).sum % 256 := by
  rw [C65_w256_positions m hm, C65_w256_positions m' hm']
  constructor
  · intro h
    constructor
    · intro i b b' hb hb'
      have h1 := (List.getElem?_eq_some_iff.mp hb).1
      have h2 := (List.getElem?_eq_some_iff.mp hb').1
      refine h i _ _ ?_ ?_
      · rw [List.getElem?_append_left (by simpa using h1), List.getElem?_map, hb]; rfl
      · rw [List.getElem?_append_left (by simpa using h2), List.getElem?_map, hb']; rfl
    · refine h 32 _ _ ?_ ?_
      · rw [List.getElem?_append_right (by simp [hm])]; simp [hm]
      · rw [List.getElem?_append_right (by simp [hm'])]; simp [hm']
  · rintro ⟨h1, h2⟩ ch d d' hd hd'
    by_cases hc : ch < 32
    · rw [List.getElem?_append_left (by simpa [hm] using hc), List.getElem?_map] at hd
      rw [List.getElem?_append_left (by simpa [hm'] using hc), List.getElem?_map] at hd'
      obtain ⟨b, e1, rfl⟩ := Option.map_eq_some_iff.mp hd
      obtain ⟨b', e2, rfl⟩ := Option.map_eq_some_iff.mp hd'
      exact h1 ch b b' e1 e2
    · rw [List.getElem?_append_right (by simp [hm]; omega)] at hd
      rw [List.getElem?_append_right (by simp [hm']; omega)] at hd'
      simp only [List.length_map, hm, hm'] at hd hd'
      match hx : ch - 32, hd, hd' with
      | 0, hd, hd' =>
        simp only [List.getElem?_cons_zero, Option.some.injEq] at hd hd'
        omega
      | 1, hd, hd' =>
        simp only [List.getElem?_cons_succ, List.getElem?_cons_zero, Option.some.injEq] at hd hd'
        omega
      | n + 2, hd, hd' => simp at hd

/-- C65. For `w = 256` every digest whose bytes are together at least 256 below their maximum (32 · 255) can be turned
into another digest in this way. -/
theorem C65_w256_refuted (m : Bytes) (hm : m.length = 32) (hs : 256 ≤ (m.map fun b => 255 - b.toNat).sum) :
    ∃ m' : Bytes, m'.length = 32 ∧ m' ≠ m ∧
      ∀ (ch d d' : Nat), (wotsDigits 256 m)[ch]? = some d → (wotsDigits 256 m')[ch]? = some d' → d ≤ d' := by
  obtain ⟨m', h1, h2, h3⟩ := raise 256 m hs
  refine ⟨m', by omega, ?_, (C65_w256_condition m m' hm (by omega)).mpr ⟨h3, by omega⟩⟩
  rintro rfl
  omega

/-- The hypotheses are met: the digest 0, 1, …, 31. -/
example : ((List.range 32).map UInt8.ofNat).length = 32 ∧
    256 ≤ (((List.range 32).map UInt8.ofNat).map fun b : UInt8 => 255 - b.toNat).sum := by decide

/-- A forgery from beginning to end, with the toy hash function (whose last byte is the length of what is hashed): the
basic signer with `w = 256` signs 135 bytes, and anyone has a signature of 136 bytes. -/
example : ∃ o o' pk sig forged, XmssBasic.new toySha zeroSeed 4 0 0 256 = ok o ∧ o.getPK = ok pk ∧
    XmssBasic.sign toySha o (List.replicate 135 0) = ok (sig, o') ∧
    forged = hashForward (HashFn.prim toySha .sha2_256) 256 (keySeed pk)
      (sigDigits (HashFn.prim toySha .sha2_256) 256 (keyRoot pk) (List.replicate 135 0) sig)
      (wotsDigits 256 (digest (HashFn.prim toySha .sha2_256) ((sig.drop 4).take 32) (keyRoot pk) (sigIndex sig)
        (List.replicate 136 0))) sig ∧
    verify toySha (List.replicate 136 0) forged pk 256 = ok true := by
  obtain ⟨p, k, q, hp, _, _, h⟩ := basicNew_eq toySha zeroSeed 4 .sha2_256 0 256 (by omega) rfl goodHeight4
  have hi := (keyOf toySha .sha2_256 256 (4 : UInt8).toNat (lenW_pos (by omega)) zeroSeed).getIndex
    { params := ⟨p, (4 : UInt8).toNat⟩, hashFunction := HashFn.sha2_256.toNat, addrFormat := 0, height := 4,
      sk := (keyOf toySha .sha2_256 256 (4 : UInt8).toNat (lenW_pos (by omega)) zeroSeed).sk 0, seed := zeroSeed } 0 rfl
    (by omega)
  obtain ⟨sig, o', pk, h1, _, _, h2, h3, h4, _⟩ := C13_basic_sign_verifies toySha zeroSeed 4 .sha2_256 0 256 (by omega)
    goodHeight4 (by decide) _ h [] [] _ rfl 0 hi (by decide) (List.replicate 135 0)
  obtain ⟨hf, e, hall⟩ := C65_hash_forward toySha (List.replicate 135 0) (List.replicate 136 0) sig pk 256 (by omega) h4
  have wf := (verify_true_iff (by omega) h4).1
  have hpk := getPK_eq (keyOf toySha .sha2_256 256 (4 : UInt8).toNat (lenW_pos (by omega)) zeroSeed)
    { params := ⟨p, (4 : UInt8).toNat⟩, hashFunction := HashFn.sha2_256.toNat, addrFormat := 0, height := 4,
      sk := (keyOf toySha .sha2_256 256 (4 : UInt8).toNat (lenW_pos (by omega)) zeroSeed).sk 0, seed := zeroSeed } 0 rfl
  have hkh : hf = .sha2_256 := by
    rw [h3] at hpk
    have hpk := Outcome.ok.inj hpk
    have := (pk_fields (keyOf toySha .sha2_256 256 (4 : UInt8).toNat (lenW_pos (by omega)) zeroSeed)
      { params := ⟨p, (4 : UInt8).toNat⟩, hashFunction := HashFn.sha2_256.toNat, addrFormat := 0, height := 4,
        sk := (keyOf toySha .sha2_256 256 (4 : UInt8).toNat (lenW_pos (by omega)) zeroSeed).sk 0, seed := zeroSeed }
      .sha2_256 rfl goodHeight4).2.1
    rw [← hpk] at this
    rw [this] at e
    exact (Option.some.inj e).symm
  subst hkh
  refine ⟨_, o', pk, sig, _, h, h3, h1, rfl, hall _ rfl ?_⟩
  have w1 := wf.1
  have w2 := wf.2.2
  have hd : ∀ n, digest (HashFn.prim toySha .sha2_256) ((sig.drop 4).take 32) (keyRoot pk) (sigIndex sig)
      (List.replicate n 0) = List.replicate 31 7 ++ [UInt8.ofNat (128 + n)] := by
    intro n
    have hl : (be 32 2 ++ ((sig.drop 4).take 32 ++ keyRoot pk ++ be 32 (sigIndex sig)) ++
        List.replicate n (0 : UInt8)).length = 128 + n := by
      simp only [List.length_append, length_be, List.length_replicate, keyRoot, List.length_take, List.length_drop]
      omega
    show List.replicate 31 7 ++ [UInt8.ofNat (_ : Bytes).length] = _
    rw [← hl]
  rw [sigDigits, hd, hd, C65_w256_condition _ _ (by simp) (by simp)]
  refine ⟨?_, by decide⟩
  intro i b b' hb hb'
  by_cases h31 : i < 31
  · rw [List.getElem?_append_left (by simpa using h31)] at hb hb'
    rw [hb] at hb'
    cases hb'
    exact Nat.le_refl _
  · rw [List.getElem?_append_right (by simp; omega)] at hb hb'
    match hx : i - (List.replicate 31 (7 : UInt8)).length, hb, hb' with
    | 0, hb, hb' =>
      cases hb; cases hb'
      decide
    | n + 1, hb, hb' => simp at hb

end Qrl.Props
