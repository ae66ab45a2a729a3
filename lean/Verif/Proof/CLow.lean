import Verif.Spec.CLow
import Verif.Proof.FastApi
import Verif.Props.BasicAny
import Verif.Props.Binding
/-!
# Proofs about the functions of src/xmss-alt on the caller's buffers (C89)
-/

namespace Qrl

open Outcome

theorem slice_short {l : Bytes} {off len : Nat} (h : l.length < off + len) : slice l off len = ub := by
  rw [slice, if_neg (by omega)]

theorem slice_append {a t : Bytes} {off len : Nat} (h : off + len ≤ a.length) : slice (a ++ t) off len = slice a off len := by
  rw [slice_eq_ok (by rw [List.length_append]; omega), slice_eq_ok h, List.drop_append_of_le_length (by omega),
    List.take_append_of_le_length (by rw [List.length_drop]; omega)]

theorem be32At_append {a t : Bytes} (h : 4 ≤ a.length) : be32At (a ++ t) = be32At a := by
  rw [be32At_eq (by rw [List.length_append]; omega), be32At_eq h, List.take_append_of_le_length h]

theorem be32At_short {a : Bytes} (h : a.length < 4) : be32At a = ub := by
  match a, h with
  | [], _ => rfl
  | [_], _ => rfl
  | [_, _], _ => rfl
  | [_, _, _], _ => rfl

theorem putAt_ok {buf data : Bytes} {off : Nat} (h : off + data.length ≤ buf.length) :
    putAt buf off data = ok (buf.take off ++ data ++ buf.drop (off + data.length)) := by rw [putAt, if_pos h]

theorem putAt_short {buf data : Bytes} {off : Nat} (h : buf.length < off + data.length) : putAt buf off data = ub := by
  rw [putAt, if_neg (by omega)]

/-- Writing right after what is already written. -/
theorem putAt_next (a b rest : Bytes) (h : b.length ≤ rest.length) :
    putAt (a ++ rest) a.length b = ok ((a ++ b) ++ rest.drop b.length) := by
  rw [putAt_ok (by rw [List.length_append]; omega), List.take_left, List.drop_length_add_append]

theorem putAt_next_short (a b rest : Bytes) (h : rest.length < b.length) : putAt (a ++ rest) a.length b = ub :=
  putAt_short (by rw [List.length_append]; omega)

/-- The four parts of a signature written one after the other. -/
theorem putSeq {α : Type} (sig a b c d : Bytes) (n1 n2 : Nat) (ha : a.length = 4) (hb : b.length = 32) (hc : c.length = n1)
    (hd : d.length = n2) (k : Bytes → Outcome α) :
    (putAt sig 0 a >>= fun s => putAt s 4 b >>= fun s => putAt s 36 c >>= fun s => putAt s (36 + n1) d >>= k) =
      if sig.length < 36 + n1 + n2 then ub else k (a ++ b ++ c ++ d ++ sig.drop (36 + n1 + n2)) := by
  by_cases h : sig.length < 36 + n1 + n2
  · rw [if_pos h]
    by_cases h1 : sig.length < 4
    · rw [putAt_short (by omega)]; rfl
    rw [putAt_ok (by omega), ok_bind, List.take_zero, List.nil_append, ha]
    by_cases h2 : sig.length < 36
    · rw [← ha, putAt_next_short _ _ _ (by rw [List.length_drop]; omega)]; rfl
    rw [show putAt (a ++ sig.drop (0 + 4)) 4 b = _ from ha ▸ putAt_next a b _ (by rw [List.length_drop]; omega), ok_bind]
    have e36 : (a ++ b).length = 36 := by rw [List.length_append]; omega
    by_cases h3 : sig.length < 36 + n1
    · rw [show putAt (a ++ b ++ (sig.drop (0 + 4)).drop b.length) 36 c = ub from
        e36 ▸ putAt_next_short (a ++ b) c _ (by rw [List.length_drop, List.length_drop]; omega)]; rfl
    rw [show putAt (a ++ b ++ (sig.drop (0 + 4)).drop b.length) 36 c = _ from
        e36 ▸ putAt_next (a ++ b) c _ (by rw [List.length_drop, List.length_drop]; omega), ok_bind]
    have e4 : (a ++ b ++ c).length = 36 + n1 := by rw [List.length_append]; omega
    rw [← e4, putAt_next_short (a ++ b ++ c) d _ (by rw [List.length_drop, List.length_drop, List.length_drop]; omega)]
    rfl
  · rw [if_neg h]
    rw [putAt_ok (by omega), ok_bind, List.take_zero, List.nil_append, ha]
    rw [show putAt (a ++ sig.drop (0 + 4)) 4 b = _ from ha ▸ putAt_next a b _ (by rw [List.length_drop]; omega), ok_bind]
    have e36 : (a ++ b).length = 36 := by rw [List.length_append]; omega
    rw [show putAt (a ++ b ++ (sig.drop (0 + 4)).drop b.length) 36 c = _ from
        e36 ▸ putAt_next (a ++ b) c _ (by rw [List.length_drop, List.length_drop]; omega), ok_bind]
    have e4 : (a ++ b ++ c).length = 36 + n1 := by rw [List.length_append]; omega
    rw [← e4, putAt_next (a ++ b ++ c) d _ (by rw [List.length_drop, List.length_drop, List.length_drop]; omega), ok_bind]
    congr 2
    simp only [List.drop_drop]
    congr 1
    omega

/-- A key buffer of at least 132 bytes: index, the four parts and what follows. -/
theorem key_buffer {sk : Bytes} (h : 132 ≤ sk.length) : ∃ K : KeyParts,
    K.skSeed = (sk.drop 4).take 32 ∧ K.skPrf = (sk.drop 36).take 32 ∧ K.ps = (sk.drop 68).take 32 ∧ K.root = (sk.drop 100).take 32 ∧
    sk = K.sk (Spec.byteVal (sk.take 4)) ++ sk.drop 132 := by
  refine ⟨⟨(sk.drop 4).take 32, (sk.drop 36).take 32, (sk.drop 68).take 32, (sk.drop 100).take 32, ?_, ?_, ?_, ?_⟩, rfl, rfl, rfl, rfl, ?_⟩
  iterate 4 simp; omega
  rw [KeyParts.sk, skOf]
  have hb : Spec.be 4 (Spec.byteVal (sk.take 4)) = sk.take 4 := by
    have h4 : (sk.take 4).length = 4 := by simp; omega
    refine Props.byteVal_inj (by rw [length_be, h4]) ?_
    rw [byteVal_be, Nat.mod_eq_of_lt]
    have := Props.byteVal_lt (sk.take 4)
    rw [h4] at this
    omega
  simp only [hb]
  have cut : ∀ n m : Nat, sk.drop n = (sk.drop n).take m ++ sk.drop (n + m) := fun n m => by
    rw [← List.drop_drop, List.take_append_drop]
  conv => lhs; rw [← List.take_append_drop 4 sk, cut 4 32, cut (4 + 32) 32, cut (4 + 32 + 32) 32, cut (4 + 32 + 32 + 32) 32]
  simp only [List.append_assoc]

theorem KeyParts.put (K : KeyParts) (i j : Nat) (t : Bytes) : putAt (K.sk i ++ t) 0 (idxBytes j) = ok (K.sk j ++ t) := by
  have hl := K.length_sk i
  have h4 : (idxBytes j).length = 4 := rfl
  rw [putAt_ok (by rw [List.length_append]; omega), List.take_zero, List.nil_append, h4, List.drop_append_of_le_length (by omega),
    ← List.append_assoc, Nat.zero_add, K.reindex]

/-! ### `xmss_Verifysig` -/

theorem validateAuthpathAny_eq (S : Sha256) (hf : HashFn) (leaf : Bytes) (idx : Nat) (sig : Bytes) (off h : Nat) (ps : Bytes) (a : Adrs)
    (h1 : 1 ≤ h) (h2 : h ≤ 255) : validateAuthpathAny S hf leaf idx sig off h ps a = validateAuthpath S hf leaf idx sig off h ps a := by
  have e : sub32 h 1 = h - 1 := by rw [sub32]; omega
  rw [validateAuthpathAny, validateAuthpath, e]

theorem authPathLoop_short (S : Sha256) (hf : HashFn) (ps sig : Bytes) (m : Nat) : ∀ (i leafidx off : Nat) (bl br : Bytes) (a : Adrs),
    off ≤ sig.length → sig.length < off + 32 * m → authPathLoop S hf ps sig m i leafidx off bl br a = ub := by
  induction m with
  | zero => intro i leafidx off bl br a h0 h; omega
  | succ m ih =>
    intro i leafidx off bl br a h0 h
    rw [authPathLoop]
    by_cases hc : sig.length < off + 32
    · simp only [slice_short hc]; rfl
    · simp only [slice_eq_ok (show off + 32 ≤ sig.length by omega), ok_bind]
      split <;> exact ih _ _ _ _ _ _ (by omega) (by omega)

theorem validateAuthpathAny_short (S : Sha256) (hf : HashFn) (leaf : Bytes) (idx : Nat) (sig : Bytes) (off h : Nat) (ps : Bytes) (a : Adrs)
    (hs : sig.length < off + 32 * (sub32 h 1 + 1)) : validateAuthpathAny S hf leaf idx sig off h ps a = ub := by
  rw [validateAuthpathAny]
  by_cases hc : sig.length < off + 32
  · rw [slice_short hc]; rfl
  · rw [slice_eq_ok (by omega), ok_bind]
    generalize (if idx &&& 1 = 1 then ((sig.drop off).take 32, leaf) else (leaf, (sig.drop off).take 32)) = x
    obtain ⟨bl, br⟩ := x
    simp only
    rw [authPathLoop_short S hf ps sig _ _ _ _ _ _ _ (by omega) (by omega)]
    rfl

theorem sliceChunks_short (sig : Bytes) (n : Nat) : ∀ off, off ≤ sig.length → sig.length < off + 32 * n → sliceChunks sig off n = ub := by
  induction n with
  | zero => intro off h0 h; omega
  | succ n ih =>
    intro off h0 h
    rw [sliceChunks]
    by_cases hc : sig.length < off + 32
    · rw [slice_short hc]; rfl
    · rw [slice_eq_ok (by omega), ok_bind, ih _ (by omega) (by omega)]; rfl

/-- `xmss_Verifysig` on any buffers. -/
theorem xmssVerifysigBuf_eq (S : Sha256) (hf : HashFn) {w : Nat} {p : WotsParams} {k q : Nat}
    (hp : SpecParams w p k q) (hw : p.len ≤ 2 ^ 20) (msg : Bytes) (msglen : Nat) (sig pk : Bytes) (h : UInt8) (hlen : 1 ≤ p.len) :
    (h = 0 → sig.length < 2 ^ 37 → xmssVerifysigBuf S hf p msg msglen sig pk h = ub) ∧
    (h ≠ 0 → xmssVerifysigBuf S hf p msg msglen sig pk h =
      if pk.length < 64 ∨ sig.length < 36 + 32 * p.len + 32 * h.toNat ∨ msg.length < msglen then ub
      else ok (if Spec.rootFromSig (hf.prim S) w h.toNat (pk.take 32) ((pk.drop 32).take 32) (msg.take msglen) sig = pk.take 32 then 0
        else -1, msg)) := by
  have h255 : h.toNat < 256 := h.toNat_lt
  generalize hH : h.toNat = H at h255 ⊢
  have hks : p.keysize = 32 * p.len := by rw [hp.good.keysize, Nat.mul_comm]
  have e0 : (4 + 32 + p.len * 32 + H * 32) % 2 ^ 32 = 36 + 32 * p.len + 32 * H := by omega
  have e1 : sub64 (36 + 32 * p.len + 32 * H) 36 = 32 * p.len + 32 * H := by rw [sub64_of_le] <;> omega
  have e2 : sub64 (32 * p.len + 32 * H) (32 * p.len) = H * 32 := by rw [sub64_of_le] <;> omega
  have e3 : sub64 (H * 32) (H * 32) = 0 := by rw [sub64_of_le] <;> omega
  by_cases c1 : pk.length < 64
  · have : xmssVerifysigBuf S hf p msg msglen sig pk h = ub := by
      rw [xmssVerifysigBuf]; simp only [slice_short (show pk.length < 32 + 32 by omega)]; rfl
    exact ⟨fun _ _ => this, fun _ => by rw [this, if_pos (Or.inl c1)]⟩
  by_cases c2 : sig.length < 4
  · have : xmssVerifysigBuf S hf p msg msglen sig pk h = ub := by
      rw [xmssVerifysigBuf]; simp only [slice_eq_ok (show 32 + 32 ≤ pk.length by omega), ok_bind, be32At_short c2]; rfl
    exact ⟨fun _ _ => this, fun _ => by rw [this, if_pos (Or.inr (Or.inl (by omega)))]⟩
  by_cases c3 : sig.length < 36
  · have : xmssVerifysigBuf S hf p msg msglen sig pk h = ub := by
      rw [xmssVerifysigBuf]
      simp only [slice_eq_ok (show 32 + 32 ≤ pk.length by omega), ok_bind, be32At_eq (show 4 ≤ sig.length by omega),
        slice_short (show sig.length < 4 + 32 by omega)]
      rfl
    exact ⟨fun _ _ => this, fun _ => by rw [this, if_pos (Or.inr (Or.inl (by omega)))]⟩
  by_cases c4 : msg.length < msglen
  · have : xmssVerifysigBuf S hf p msg msglen sig pk h = ub := by
      rw [xmssVerifysigBuf]
      simp only [slice_eq_ok (show 32 + 32 ≤ pk.length by omega), slice_eq_ok (show 0 + 32 ≤ pk.length by omega), ok_bind,
        be32At_eq (show 4 ≤ sig.length by omega), slice_eq_ok (show 4 + 32 ≤ sig.length by omega),
        slice_short (show msg.length < 0 + msglen by omega)]
      rfl
    exact ⟨fun _ _ => this, fun _ => by rw [this, if_pos (Or.inr (Or.inr c4))]⟩
  by_cases c5 : sig.length < 36 + 32 * p.len
  · have : xmssVerifysigBuf S hf p msg msglen sig pk h = ub := by
      rw [xmssVerifysigBuf]
      simp only [slice_eq_ok (show 32 + 32 ≤ pk.length by omega), slice_eq_ok (show 0 + 32 ≤ pk.length by omega), ok_bind,
        be32At_eq (show 4 ≤ sig.length by omega), slice_eq_ok (show 4 + 32 ≤ sig.length by omega),
        slice_eq_ok (show 0 + msglen ≤ msg.length by omega), sliceChunks_short sig p.len 36 (by omega) c5]
      rfl
    exact ⟨fun _ _ => this, fun _ => by rw [this, if_pos (Or.inr (Or.inl (by omega)))]⟩
  have main :
      (∀ leaf b c d e, validateAuthpathAny S hf leaf (Spec.byteVal (sig.take 4)) sig (36 + 32 * p.len) H ((pk.drop 32).take 32)
        ⟨0, 0, 0, 2, b, c, d, e⟩ = ub) → xmssVerifysigBuf S hf p msg msglen sig pk h = ub := by
    intro hv
    simp only [xmssVerifysigBuf, hH, e0, slice_eq_ok (show 32 + 32 ≤ pk.length by omega),
      slice_eq_ok (show 0 + 32 ≤ pk.length by omega), be32At_eq (show 4 ≤ sig.length by omega),
      slice_eq_ok (show 4 + 32 ≤ sig.length by omega), ok_bind, List.drop_zero, Adrs.setType, Adrs.setOTS,
      Adrs.setLtree, toByte_eq_be, hMsg_eq, hks, e1, e2, e3, slice_eq_ok (show 0 + msglen ≤ msg.length by omega),
      sliceChunks_eq sig p.len 36 (by omega)]
    obtain ⟨b', c', d', e4⟩ := wotsPkFromSig_spec S hf hp (Spec.chunks sig 36 p.len)
      (Spec.Hmsg (hf.prim S) ((sig.drop 4).take 32 ++ pk.take 32 ++ Spec.be 32 (Spec.byteVal (sig.take 4))) (msg.take msglen))
      ((pk.drop 32).take 32) (Spec.byteVal (sig.take 4)) 0 0 0 (length_Hmsg ..)
    rw [e4]
    simp only [ok_bind]
    have hdl := length_wotsDigits hp (Spec.Hmsg (hf.prim S) ((sig.drop 4).take 32 ++ pk.take 32 ++
      Spec.be 32 (Spec.byteVal (sig.take 4))) (msg.take msglen)) (length_Hmsg ..)
    obtain ⟨b2, c2, d2, e5⟩ := lTree_eq S hf p (Spec.wotsPkFromSig (hf.prim S) w ((pk.drop 32).take 32)
      (Spec.byteVal (sig.take 4)) (Spec.chunks sig 36 p.len)
      (Spec.wotsDigits w (Spec.Hmsg (hf.prim S) ((sig.drop 4).take 32 ++ pk.take 32 ++
      Spec.be 32 (Spec.byteVal (sig.take 4))) (msg.take msglen)))) ((pk.drop 32).take 32) (Spec.byteVal (sig.take 4)) 0 0 0 hlen
      (by simp only [Spec.wotsPkFromSig, List.length_map, List.length_zipIdx, List.length_zip, length_chunks, hdl,
        Nat.min_self])
    rw [e5]
    simp only [ok_bind]
    rw [hv]
    rfl
  refine ⟨fun h0 hs => ?_, fun hn => ?_⟩
  · subst h0
    have hz : H = 0 := by rw [← hH]; rfl
    refine main fun leaf b c d e => ?_
    subst hz
    exact validateAuthpathAny_short S hf leaf _ sig _ _ _ _ (by rw [show sub32 0 1 = 2 ^ 32 - 1 from rfl]; omega)
  · have h1 : 1 ≤ H := by
      rcases Nat.eq_zero_or_pos H with hz | hz
      · exact absurd (UInt8.toNat_inj.mp (show h.toNat = (0 : UInt8).toNat by rw [hH, hz]; rfl)) hn
      · exact hz
    by_cases c6 : sig.length < 36 + 32 * p.len + 32 * H
    · rw [if_pos (Or.inr (Or.inl c6))]
      refine main fun leaf b c d e => ?_
      refine validateAuthpathAny_short S hf leaf _ sig _ _ _ _ ?_
      rw [show sub32 H 1 = H - 1 by rw [sub32]; omega]
      omega
    · rw [if_neg (by omega)]
      simp only [xmssVerifysigBuf, hH, e0, slice_eq_ok (show 32 + 32 ≤ pk.length by omega),
        slice_eq_ok (show 0 + 32 ≤ pk.length by omega), be32At_eq (show 4 ≤ sig.length by omega),
        slice_eq_ok (show 4 + 32 ≤ sig.length by omega), ok_bind, List.drop_zero, Adrs.setType, Adrs.setOTS,
        Adrs.setLtree, toByte_eq_be, hMsg_eq, hks, e1, e2, e3, slice_eq_ok (show 0 + msglen ≤ msg.length by omega),
        sliceChunks_eq sig p.len 36 (by omega)]
      obtain ⟨b', c', d', e4⟩ := wotsPkFromSig_spec S hf hp (Spec.chunks sig 36 p.len)
        (Spec.Hmsg (hf.prim S) ((sig.drop 4).take 32 ++ pk.take 32 ++ Spec.be 32 (Spec.byteVal (sig.take 4))) (msg.take msglen))
        ((pk.drop 32).take 32) (Spec.byteVal (sig.take 4)) 0 0 0 (length_Hmsg ..)
      rw [e4]
      simp only [ok_bind]
      have hdl := length_wotsDigits hp (Spec.Hmsg (hf.prim S) ((sig.drop 4).take 32 ++ pk.take 32 ++
        Spec.be 32 (Spec.byteVal (sig.take 4))) (msg.take msglen)) (length_Hmsg ..)
      obtain ⟨b2, c2, d2, e5⟩ := lTree_eq S hf p (Spec.wotsPkFromSig (hf.prim S) w ((pk.drop 32).take 32)
        (Spec.byteVal (sig.take 4)) (Spec.chunks sig 36 p.len)
        (Spec.wotsDigits w (Spec.Hmsg (hf.prim S) ((sig.drop 4).take 32 ++ pk.take 32 ++
        Spec.be 32 (Spec.byteVal (sig.take 4))) (msg.take msglen)))) ((pk.drop 32).take 32) (Spec.byteVal (sig.take 4)) 0 0 0 hlen
        (by simp only [Spec.wotsPkFromSig, List.length_map, List.length_zipIdx, List.length_zip, length_chunks, hdl,
          Nat.min_self])
      rw [e5]
      simp only [ok_bind]
      rw [validateAuthpathAny_eq S hf _ _ _ _ _ _ _ h1 (by omega), validateAuthpath_eq S hf _ _ _ _ _ _ _ _ _ h1 (by omega)]
      simp only [ok_bind, zeroBack, copyBack, Spec.rootFromSig, Spec.digest, hp.len]
      split <;> simp_all

/-! ### `xmss_Genkeypair` and `xmssfast_Genkeypair` -/

/-- What both functions do to the buffers around the computation of the root. -/
theorem genBuf {α β : Type} (pk sk seed : Bytes) (root : Bytes → Bytes → Outcome (Bytes × β)) (fin : Bytes → Bytes → β → α)
    (hr : ∀ a b r st, root a b = ok (r, st) → r.length = 32) :
    (do
      let sk ← putAt sk 0 [0, 0, 0, 0]
      let seed48 ← slice seed 0 48
      let randombits := shake256 96 seed48
      let sk ← putAt sk 4 randombits
      let x ← slice sk 68 32
      let pk ← putAt pk 32 x
      let skSeed ← slice sk 4 32
      let pubSeed ← slice sk 68 32
      let (root, st) ← root skSeed pubSeed
      let pk ← putAt pk 0 root
      let root ← slice pk 0 32
      let sk ← putAt sk 100 root
      ok (fin pk sk st)) =
    if pk.length < 64 ∨ sk.length < 100 ∨ seed.length < 48 then ub
    else root ((shake256 96 (seed.take 48)).take 32) ((shake256 96 (seed.take 48)).drop 64) >>= fun (r, st) =>
      if sk.length < 132 then ub
      else ok (fin (r ++ (shake256 96 (seed.take 48)).drop 64 ++ pk.drop 64)
        (List.replicate 4 0 ++ shake256 96 (seed.take 48) ++ r ++ sk.drop 132) st) := by
  by_cases c1 : sk.length < 4
  · rw [putAt_short (by simpa using c1), if_pos (by omega)]; rfl
  rw [putAt_ok (by simp; omega), ok_bind]
  by_cases c2 : seed.length < 48
  · rw [slice_short (by omega), if_pos (by omega)]; rfl
  rw [slice_eq_ok (by omega), ok_bind, List.drop_zero]
  generalize hrb : shake256 96 (seed.take 48) = rb
  have hl : rb.length = 96 := by rw [← hrb]; simp
  dsimp only
  rw [List.take_zero, List.nil_append]
  by_cases c3 : sk.length < 100
  · rw [putAt_short (by simp; omega), if_pos (by omega)]; rfl
  have e1 : putAt ([0, 0, 0, 0] ++ sk.drop (0 + 4)) 4 rb = _ := putAt_next [0, 0, 0, 0] rb (sk.drop (0 + 4)) (by simp; omega)
  rw [show ([0, 0, 0, 0] : Bytes).length = 4 from rfl]
  rw [e1, ok_bind, List.drop_drop, hl]
  have hsk : ([0, 0, 0, 0] ++ rb ++ sk.drop (0 + 4 + 96) : Bytes) = [0, 0, 0, 0] ++ rb ++ sk.drop 100 := by simp
  rw [hsk]
  have hlen : ([0, 0, 0, 0] ++ rb ++ sk.drop 100 : Bytes).length = sk.length := by simp; omega
  have s1 : slice ([0, 0, 0, 0] ++ rb ++ sk.drop 100) 68 32 = ok (rb.drop 64) := by
    rw [slice_append (by simp; omega), slice_eq_ok (by simp; omega)]
    congr 1
    rw [List.take_of_length_le (by simp; omega), show (68 : Nat) = ([0, 0, 0, 0] : Bytes).length + 64 from rfl, List.drop_length_add_append]
  have s2 : slice ([0, 0, 0, 0] ++ rb ++ sk.drop 100) 4 32 = ok (rb.take 32) := by
    rw [slice_append (by simp; omega), slice_eq_ok (by simp; omega)]
    rfl
  rw [s1, ok_bind]
  by_cases c4 : pk.length < 64
  · rw [putAt_short (by simp; omega), if_pos (by omega)]; rfl
  rw [putAt_ok (by simp; omega), ok_bind, s2, ok_bind, ok_bind, if_neg (by omega)]
  cases hroot : root (rb.take 32) (rb.drop 64) with
  | ub => rfl
  | throw e => rfl
  | ok x =>
    obtain ⟨r, st⟩ := x
    have h32 := hr _ _ _ _ hroot
    rw [ok_bind, ok_bind]
    dsimp only
    rw [putAt_ok (by simp; omega), ok_bind, List.take_zero, List.nil_append, h32, slice_append (by omega), slice_eq_ok (by omega), ok_bind]
    have hpk : (pk.take 32 ++ rb.drop 64 ++ pk.drop (32 + (rb.drop 64).length)).drop (0 + 32) = rb.drop 64 ++ pk.drop 64 := by
      have : (pk.take 32).length = 32 := by simp; omega
      rw [List.append_assoc, Nat.zero_add]
      rw [List.drop_left' this]
      simp [hl]
    rw [hpk, List.drop_zero, List.take_of_length_le (by omega)]
    by_cases c5 : sk.length < 132
    · rw [putAt_short (by rw [hlen]; omega), if_pos c5]; rfl
    · have e2 := putAt_next ([0, 0, 0, 0] ++ rb) r (sk.drop 100) (by simp; omega)
      rw [show ([0, 0, 0, 0] ++ rb : Bytes).length = 100 by simp [hl]] at e2
      rw [e2, ok_bind, if_neg c5, h32, List.drop_drop]
      simp only [List.append_assoc]
      rfl

theorem xmssGenkeypairBuf_eq (S : Sha256) (hf : HashFn) (p : XmssParams) (hlen : 1 ≤ p.wots.len) (pk sk seed : Bytes) :
    xmssGenkeypairBuf S hf p pk sk seed =
      if 32 ≤ p.h ∨ pk.length < 64 ∨ sk.length < 132 ∨ seed.length < 48 then ub
      else
        let x := shake256 96 (seed.take 48)
        let root := Spec.node (hf.prim S) p.wots.w p.wots.len (x.take 32) (x.drop 64) p.h 0
        ok (0, root ++ x.drop 64 ++ pk.drop 64, List.replicate 4 0 ++ x ++ root ++ sk.drop 132) := by
  have e := genBuf pk sk seed (fun a b => treehash S hf p.h 0 a p b {} >>= fun r => ok (r, ()))
    (fun pk sk _ => ((0 : Int), pk, sk)) (by
      intro a b r st h
      obtain ⟨r', h1, h2⟩ := bind_eq_ok.mp h
      cases h2
      by_cases hh : p.h < 32
      · rw [treehash_eq S hf p _ _ hlen p.h hh 0 0 0 0 0] at h1
        cases h1
        exact length_node S hf _ _ _ _ hlen _ _
      · rw [treehash] at h1; simp only [if_pos (show p.h ≥ 32 by omega)] at h1; cases h1)
  have hb : ∀ a b (k : Bytes × Unit → Outcome (Int × Bytes × Bytes)),
      ((treehash S hf p.h 0 a p b {} >>= fun r => ok (r, ())) >>= k) = (treehash S hf p.h 0 a p b {} >>= fun r => k (r, ())) := by
    intro a b k
    cases treehash S hf p.h 0 a p b {} <;> rfl
  simp only [hb] at e
  refine Eq.trans (show xmssGenkeypairBuf S hf p pk sk seed = _ from e) ?_
  by_cases c1 : pk.length < 64 ∨ sk.length < 100 ∨ seed.length < 48
  · rw [if_pos c1, if_pos (by omega)]
  rw [if_neg c1]
  by_cases hh : p.h < 32
  · rw [treehash_eq S hf p _ _ hlen p.h hh 0 0 0 0 0, ok_bind]
    by_cases c2 : sk.length < 132
    · simp only [if_pos c2]
      rw [if_pos (by omega)]
    · simp only [if_neg c2]
      rw [if_neg (by omega)]
  · rw [if_pos (by omega), treehash, if_pos (show p.h ≥ 32 by omega)]
    rfl

/-! ### `xmss_Signmsg` and `xmssfast_Signmsg` -/

theorem xmssSignmsgBuf_eq (S : Sha256) (hf : HashFn) {w : Nat} {p : XmssParams} {k q : Nat}
    (hp : SpecParams w p.wots k q) (hlen : 1 ≤ p.wots.len) (K : KeyParts) (idx : Nat) (h32 : idx < 2 ^ 32) (h1 : 1 ≤ p.h)
    (hev : p.h % 2 = 0) (t sig msg : Bytes) (msglen : Nat) :
    xmssSignmsgBuf S hf p (K.sk idx ++ t) sig msg msglen =
      if sig.length < 36 + 32 * p.wots.len + 32 * p.h ∨ msg.length < msglen ∨ 25 < p.h ∨ 2 ^ p.h ≤ idx then ub
      else ok (0, K.sk (idx + 1) ++ t,
        Spec.bufferSignature (hf.prim S) w p.h K.skSeed K.skPrf K.ps K.root idx idx (msg.take msglen) ++
          sig.drop (36 + 32 * p.wots.len + 32 * p.h)) := by
  have hl := K.length_sk
  have hks : p.wots.keysize = 32 * p.wots.len := by rw [hp.good.keysize, Nat.mul_comm]
  by_cases c1 : msg.length < msglen
  · rw [if_pos (by omega), xmssSignmsgBuf]
    simp only [be32At_append (show 4 ≤ (K.sk idx).length by have := hl idx; omega), slice_append (show 4 + 32 ≤ (K.sk idx).length by have := hl idx; omega),
      slice_append (show 36 + 32 ≤ (K.sk idx).length by rw [hl]; omega), slice_append (show 68 + 32 ≤ (K.sk idx).length by rw [hl]; omega),
      K.idx idx h32, K.seed_slice, K.prf_slice, K.ps_slice, ok_bind, K.put,
      slice_append (show 100 + 32 ≤ (K.sk (idx + 1)).length by rw [hl]), K.root_slice, slice_short (show msg.length < 0 + msglen by omega)]
    rfl
  rw [xmssSignmsgBuf]
  simp only [be32At_append (show 4 ≤ (K.sk idx).length by have := hl idx; omega), slice_append (show 4 + 32 ≤ (K.sk idx).length by have := hl idx; omega),
      slice_append (show 36 + 32 ≤ (K.sk idx).length by rw [hl]; omega), slice_append (show 68 + 32 ≤ (K.sk idx).length by rw [hl]; omega),
      K.idx idx h32, K.seed_slice, K.prf_slice, K.ps_slice, ok_bind, K.put,
      slice_append (show 100 + 32 ≤ (K.sk (idx + 1)).length by rw [hl]), K.root_slice,
      slice_eq_ok (show 0 + msglen ≤ msg.length by omega), prf_eq, toByte_eq_be, hMsg_eq, Adrs.setType, Adrs.setOTS, getSeed_eq, List.drop_zero]
  obtain ⟨b', c', d', e⟩ := wotsSign_spec S hf hp (Spec.Hmsg (hf.prim S)
          (Spec.PRF (hf.prim S) K.skPrf (Spec.be 32 idx) ++ K.root ++ Spec.be 32 idx) (msg.take msglen)) K.skSeed K.ps idx 0 0 0
    (length_Hmsg ..)
  rw [e]
  simp only [ok_bind]
  have hdl := length_wotsDigits hp (Spec.Hmsg (hf.prim S)
          (Spec.PRF (hf.prim S) K.skPrf (Spec.be 32 idx) ++ K.root ++ Spec.be 32 idx) (msg.take msglen)) (length_Hmsg ..)
  have hwl : (Spec.wotsSig (hf.prim S) K.skSeed K.ps idx (Spec.wotsDigits w (Spec.Hmsg (hf.prim S)
          (Spec.PRF (hf.prim S) K.skPrf (Spec.be 32 idx) ++ K.root ++ Spec.be 32 idx) (msg.take msglen)))).flatten.length =
          32 * p.wots.len := by
    rw [length_flatten32 _ (mem_wotsSig S hf _ _ _ _)]
    simp only [Spec.wotsSig, List.length_map, List.length_zipIdx, hdl]
  have bindub : ∀ {α β : Type} (x : Outcome α), (∀ e, x ≠ .throw e) → (x >>= fun _ => (ub : Outcome β)) = ub := by
    intro α β x hx
    cases x with
    | ok a => rfl
    | ub => rfl
    | throw e => exact absurd rfl (hx e)
  have hput : ∀ b o d e, putAt b o d ≠ .throw e := by
    intro b o d e h
    rw [putAt] at h
    split at h <;> cases h
  by_cases c2 : 25 < p.h ∨ 2 ^ p.h ≤ idx
  · rw [if_pos (by omega)]
    have hub : computeAuthpathWots S hf idx K.skSeed p K.ps ⟨0, 0, 0, 0, idx, b', c', d'⟩ = ub := by
      by_cases c3 : 25 < p.h
      · by_cases c4 : 30 ≤ p.h
        · rw [computeAuthpathWots, if_pos c4]
        · exact Props.computeAuthpath_tall S hf p hlen (by omega) _ _ _ _ _ _ _ _
      · exact computeAuthpath_oob S hf p _ _ hlen h1 (by omega) idx (by omega) _ _ _ _ _
    rw [hub]
    have : ∀ y, (putAt sig 0 (idxBytes idx) >>= fun s => putAt s 4 (Spec.PRF (hf.prim S) K.skPrf (Spec.be 32 idx)) >>= fun s =>
      putAt s 36 y >>= fun s => (ub : Outcome (Int × Bytes × Bytes))) = ub := by
      intro y
      simp only [fun b o d => bindub (β := Int × Bytes × Bytes) (putAt b o d) (fun e => hput _ _ _ e)]
    exact this _
  · rw [computeAuthpathWots_eq S hf p K.skSeed K.ps hlen (by omega) idx (by omega)]
    simp only [ok_bind]
    rw [hks]
    have hpl : (Spec.authPath (hf.prim S) p.wots.w p.wots.len K.skSeed K.ps p.h idx).flatten.length = 32 * p.h := by
      rw [length_flatten32 _ (mem_authPath S hf _ _ _ _ _ _ hlen)]
      simp [Spec.authPath]
    have := putSeq sig (idxBytes idx) (Spec.PRF (hf.prim S) K.skPrf (Spec.be 32 idx)) _ _ (32 * p.wots.len) (32 * p.h) rfl
      (length_PRF ..) hwl hpl (fun s => ok ((0 : Int), K.sk (idx + 1) ++ t, s))
    rw [this]
    by_cases c5 : sig.length < 36 + 32 * p.wots.len + 32 * p.h
    · rw [if_pos c5, if_pos (by omega)]
    · rw [if_neg c5, if_neg (by omega)]
      rw [Spec.bufferSignature, idxBytes_eq, hp.len, hp.pw]
      rfl

/-- `xmssfast_Signmsg` on a key buffer and the state that belongs to it. -/
theorem xmssfastSignmsgBuf_eq (S : Sha256) (hf : HashFn) {w : Nat} {p : XmssParams} {k q : Nat}
    (hp : SpecParams w p.wots k q) (hlen : 1 ≤ p.wots.len) (hh4 : 4 ≤ p.h) (hh30 : p.h ≤ 30) (hev : p.h % 2 = 0)
    (K : KeyParts) {st0 : BdsState}
    (hst : BdsInv (Spec.node (hf.prim S) p.wots.w p.wots.len K.skSeed K.ps) p.h 0 (fun _ => none) st0)
    (i : Nat) (h32 : i < 2 ^ 32) (t sig msg : Bytes) (msglen : Nat) :
    xmssfastSignmsgBuf S hf p (K.sk i ++ t) (stAt S hf p K.skSeed K.ps st0 (min i (2 ^ p.h - 1))) sig msg msglen =
      if sig.length < Spec.signatureSize w p.h ∨ msg.length < msglen then ub
      else ok (0, K.sk (i + 1) ++ t,
        Spec.bufferSignature (hf.prim S) w p.h K.skSeed K.skPrf K.ps K.root i (min i (2 ^ p.h - 1)) (msg.take msglen) ++
          sig.drop (Spec.signatureSize w p.h), stAt S hf p K.skSeed K.ps st0 (min (i + 1) (2 ^ p.h - 1))) := by
  have hl := K.length_sk
  have hpos := Nat.two_pow_pos p.h
  have hks : p.wots.keysize = 32 * p.wots.len := by rw [hp.good.keysize, Nat.mul_comm]
  have hsz : Spec.signatureSize w p.h = 36 + 32 * p.wots.len + 32 * p.h := by rw [Spec.signatureSize, hp.len]
  rw [hsz]
  by_cases c1 : msg.length < msglen
  · rw [if_pos (by omega), xmssfastSignmsgBuf]
    simp only [be32At_append (show 4 ≤ (K.sk i).length by have := hl i; omega), slice_append (show 4 + 32 ≤ (K.sk i).length by have := hl i; omega),
      slice_append (show 36 + 32 ≤ (K.sk i).length by rw [hl]; omega), slice_append (show 68 + 32 ≤ (K.sk i).length by rw [hl]; omega),
      K.idx i h32, K.seed_slice, K.prf_slice, K.ps_slice, ok_bind, K.put,
      slice_append (show 100 + 32 ≤ (K.sk (i + 1)).length by rw [hl]), K.root_slice, slice_short (show msg.length < 0 + msglen by omega)]
    rfl
  generalize hj : min i (2 ^ p.h - 1) = j
  have hjlt : j < 2 ^ p.h := by omega
  obtain ⟨-, T, hinv⟩ := adv_inv S hf p K.skSeed K.ps hlen hh4 hh30 hev hst j hjlt
  have hpath := authOut_eq _ p.h j _ hinv.auth.auth p.h 0 (by omega)
  rw [xmssfastSignmsgBuf]
  simp only [be32At_append (show 4 ≤ (K.sk i).length by have := hl i; omega), slice_append (show 4 + 32 ≤ (K.sk i).length by have := hl i; omega),
      slice_append (show 36 + 32 ≤ (K.sk i).length by rw [hl]; omega), slice_append (show 68 + 32 ≤ (K.sk i).length by rw [hl]; omega),
      K.idx i h32, K.seed_slice, K.prf_slice, K.ps_slice, ok_bind, K.put,
      slice_append (show 100 + 32 ≤ (K.sk (i + 1)).length by rw [hl]), K.root_slice,
      slice_eq_ok (show 0 + msglen ≤ msg.length by omega), prf_eq, toByte_eq_be, hMsg_eq, Adrs.setType, Adrs.setOTS, getSeed_eq, List.drop_zero]
  obtain ⟨b', c', d', e⟩ := wotsSign_spec S hf hp (Spec.Hmsg (hf.prim S)
          (Spec.PRF (hf.prim S) K.skPrf (Spec.be 32 i) ++ K.root ++ Spec.be 32 i) (msg.take msglen)) K.skSeed K.ps i 0 0 0
    (length_Hmsg ..)
  rw [e]
  simp only [ok_bind]
  have hdl := length_wotsDigits hp (Spec.Hmsg (hf.prim S)
          (Spec.PRF (hf.prim S) K.skPrf (Spec.be 32 i) ++ K.root ++ Spec.be 32 i) (msg.take msglen)) (length_Hmsg ..)
  have hwl : (Spec.wotsSig (hf.prim S) K.skSeed K.ps i (Spec.wotsDigits w (Spec.Hmsg (hf.prim S)
          (Spec.PRF (hf.prim S) K.skPrf (Spec.be 32 i) ++ K.root ++ Spec.be 32 i) (msg.take msglen)))).flatten.length =
          32 * p.wots.len := by
    rw [length_flatten32 _ (mem_wotsSig S hf _ _ _ _)]
    simp only [Spec.wotsSig, List.length_map, List.length_zipIdx, hdl]
  rw [hpath]
  simp only [ok_bind]
  have hap : ((List.range' 0 p.h).map fun l => Spec.node (hf.prim S) p.wots.w p.wots.len K.skSeed K.ps l (Spec.sibling (j / 2 ^ l))) =
      Spec.authPath (hf.prim S) p.wots.w p.wots.len K.skSeed K.ps p.h j := by rw [Spec.authPath, List.range_eq_range']
  rw [hap]
  have hpl : (Spec.authPath (hf.prim S) p.wots.w p.wots.len K.skSeed K.ps p.h j).flatten.length = 32 * p.h := by
    rw [length_flatten32 _ (mem_authPath S hf _ _ _ _ _ _ hlen)]
    simp [Spec.authPath]
  have hround : ∀ s : Bytes, (if i < 2 ^ p.h - 1 then do
      let st ← bdsRound S hf (stAt S hf p K.skSeed K.ps st0 j) i K.skSeed p K.ps ⟨0, 0, 0, 0, i, b', c', d'⟩
      let st ← bdsTreehashUpdate S hf K.skSeed p K.ps ⟨0, 0, 0, 0, i, b', c', d'⟩ ((p.h - 2) >>> 1) st
      ok ((0 : Int), K.sk (i + 1) ++ t, s, st)
    else ok ((0 : Int), K.sk (i + 1) ++ t, s, stAt S hf p K.skSeed K.ps st0 j)) =
      ok ((0 : Int), K.sk (i + 1) ++ t, s, stAt S hf p K.skSeed K.ps st0 (min (i + 1) (2 ^ p.h - 1))) := by
    intro s
    by_cases hc : i < 2 ^ p.h - 1
    · rw [if_pos hc]
      have hji : j = i := by omega
      rw [hji]
      have hstep := adv_step S hf p K.skSeed K.ps hlen hh4 hh30 hev hst i (by omega) 0 i b' c' d'
      obtain ⟨s1, e1, e2⟩ := bind_eq_ok.mp hstep
      rw [e1, ok_bind, e2, ok_bind, Nat.min_eq_left (by omega)]
    · rw [if_neg hc]
      congr 5
      omega
  simp only [hround, hks]
  have := putSeq sig (idxBytes i) (Spec.PRF (hf.prim S) K.skPrf (Spec.be 32 i)) _ _ (32 * p.wots.len) (32 * p.h) rfl
    (length_PRF ..) hwl hpl (fun s => ok ((0 : Int), K.sk (i + 1) ++ t, s, stAt S hf p K.skSeed K.ps st0 (min (i + 1) (2 ^ p.h - 1))))
  rw [this]
  by_cases c5 : sig.length < 36 + 32 * p.wots.len + 32 * p.h
  · rw [if_pos c5, if_pos (by omega)]
  · rw [if_neg c5, if_neg (by omega)]
    rw [Spec.bufferSignature, idxBytes_eq, hp.len, hp.pw]
    rfl

/-- `xmssfast_update` on a key buffer and the state that belongs to it. -/
theorem xmssfastUpdateBuf_eq (S : Sha256) (hf : HashFn) {p : XmssParams} (hlen : 1 ≤ p.wots.len)
    (hh4 : 4 ≤ p.h) (hh30 : p.h ≤ 30) (hev : p.h % 2 = 0) (K : KeyParts) {st0 : BdsState}
    (hst : BdsInv (Spec.node (hf.prim S) p.wots.w p.wots.len K.skSeed K.ps) p.h 0 (fun _ => none) st0)
    (i : Nat) (h32 : i < 2 ^ 32) (t : Bytes) (n : UInt32) :
    xmssfastUpdateBuf S hf p (K.sk i ++ t) (stAt S hf p K.skSeed K.ps st0 (min i (2 ^ p.h - 1))) n =
      if n.toNat ≥ 2 ^ p.h ∨ n.toNat < i then
        .raise .invalidArgument (K.sk i ++ t, stAt S hf p K.skSeed K.ps st0 (min i (2 ^ p.h - 1)))
      else .ret 0 (K.sk n.toNat ++ t, stAt S hf p K.skSeed K.ps st0 (min n.toNat (2 ^ p.h - 1))) := by
  have hl := K.length_sk
  rw [xmssfastUpdateBuf, if_neg (by omega), be32At_append (show 4 ≤ (K.sk i).length by have := hl i; omega), K.idx i h32]
  dsimp only
  by_cases c1 : n.toNat ≥ 2 ^ p.h
  · rw [if_pos c1, if_pos (Or.inl c1)]
  rw [if_neg c1]
  by_cases c2 : n.toNat < i
  · rw [if_pos c2, if_pos (Or.inr c2)]
  rw [if_neg c2, if_neg (by omega), Nat.min_eq_left (show i ≤ 2 ^ p.h - 1 by omega), Nat.min_eq_left (show n.toNat ≤ 2 ^ p.h - 1 by omega)]
  simp only [slice_append (show 4 + 32 ≤ (K.sk i).length by have := hl i; omega),
    slice_append (show 68 + 32 ≤ (K.sk i).length by rw [hl]; omega), K.seed_slice, K.ps_slice, ok_bind,
    adv_skip S hf p K.skSeed K.ps hlen hh4 hh30 hev hst i n.toNat (by omega) (by omega), K.put, Step.ofOutcome]

/-- Every history of the fast functions on a key buffer and the state that belongs to it. -/
theorem cRun_eq (S : Sha256) (hf : HashFn) {w : Nat} {p : XmssParams} {k q : Nat}
    (hp : SpecParams w p.wots k q) (hlen : 1 ≤ p.wots.len) (hh4 : 4 ≤ p.h) (hh30 : p.h ≤ 30) (hev : p.h % 2 = 0)
    (K : KeyParts) {st0 : BdsState}
    (hst : BdsInv (Spec.node (hf.prim S) p.wots.w p.wots.len K.skSeed K.ps) p.h 0 (fun _ => none) st0) (t : Bytes) (cs : List CCall) :
    ∀ i : Nat, max i (2 ^ p.h) + cs.length ≤ 2 ^ 32 →
    cRun S hf p (K.sk i ++ t, stAt S hf p K.skSeed K.ps st0 (min i (2 ^ p.h - 1))) cs =
      (Spec.uncheckedRun (Spec.signatureSize w p.h) (2 ^ p.h)
        (fun j m => Spec.bufferSignature (hf.prim S) w p.h K.skSeed K.skPrf K.ps K.root j (min j (2 ^ p.h - 1)) m) i cs).map
        fun x => (x.1, (K.sk x.2 ++ t, stAt S hf p K.skSeed K.ps st0 (min x.2 (2 ^ p.h - 1)))) := by
  induction cs with
  | nil => intro i _; rfl
  | cons c cs ih =>
    intro i hi
    rw [List.length_cons] at hi
    cases c with
    | update n =>
      rw [cRun, cCall, xmssfastUpdateBuf_eq S hf hlen hh4 hh30 hev K hst i (by omega) t n, Spec.uncheckedRun]
      by_cases c1 : n.toNat ≥ 2 ^ p.h ∨ n.toNat < i
      · rw [if_pos c1, if_pos c1]
        simp only [Option.bind_eq_bind, Option.bind_some]
        rw [ih i (by omega), Option.map_map]
        generalize Spec.uncheckedRun _ _ _ i cs = o
        cases o <;> rfl
      · rw [if_neg c1, if_neg c1]
        simp only [Option.bind_eq_bind, Option.bind_some]
        rw [ih n.toNat (by omega), Option.map_map]
        generalize Spec.uncheckedRun _ _ _ n.toNat cs = o
        cases o <;> rfl
    | sign buf msg msglen =>
      rw [cRun, cCall, xmssfastSignmsgBuf_eq S hf hp hlen hh4 hh30 hev K hst i (by omega) t buf msg msglen, Spec.uncheckedRun]
      by_cases c1 : buf.length < Spec.signatureSize w p.h ∨ msg.length < msglen
      · rw [if_pos c1, if_pos c1]
        rfl
      · rw [if_neg c1, if_neg c1]
        simp only [Option.bind_eq_bind, Option.bind_some]
        rw [ih (i + 1) (by omega), Option.map_map]
        generalize Spec.uncheckedRun _ _ _ (i + 1) cs = o
        cases o <;> rfl

/-- `xmssfast_Genkeypair` with a fresh state: the buffers and a state that belongs to the key. -/
theorem xmssfastGenkeypairBuf_eq (S : Sha256) (hf : HashFn) (p : XmssParams) (hlen : 1 ≤ p.wots.len) (hh4 : 4 ≤ p.h) (hh30 : p.h ≤ 30)
    (hev : p.h % 2 = 0) (pk sk seed : Bytes) :
    ∃ st, BdsInv (Spec.node (hf.prim S) p.wots.w p.wots.len ((shake256 96 (seed.take 48)).take 32) ((shake256 96 (seed.take 48)).drop 64))
        p.h 0 (fun _ => none) st ∧
      xmssfastGenkeypairBuf S hf p pk sk (bdsInit p.h) seed =
      if pk.length < 64 ∨ sk.length < 132 ∨ seed.length < 48 then ub
      else
        let x := shake256 96 (seed.take 48)
        let root := Spec.node (hf.prim S) p.wots.w p.wots.len (x.take 32) (x.drop 64) p.h 0
        ok (0, root ++ x.drop 64 ++ pk.drop 64, List.replicate 4 0 ++ x ++ root ++ sk.drop 132, st) := by
  have e := genBuf pk sk seed (fun a b => treehashSetup S hf p.h 0 (bdsInit p.h) a p b {})
    (fun pk sk st => ((0 : Int), pk, sk, st)) (by
      intro a b r st h
      obtain ⟨st', h1, h2⟩ := treehashSetup_eq S hf p a b hlen hh4 hh30
      rw [h1] at h
      cases h
      exact length_node S hf _ _ _ _ hlen _ _)
  obtain ⟨st, h1, h2⟩ := treehashSetup_eq S hf p ((shake256 96 (seed.take 48)).take 32) ((shake256 96 (seed.take 48)).drop 64) hlen hh4 hh30
  refine ⟨st, h2, ?_⟩
  rw [xmssfastGenkeypairBuf, if_neg (by rw [Nat.and_one_is_mod]; omega)]
  refine Eq.trans e ?_
  by_cases c1 : pk.length < 64 ∨ sk.length < 100 ∨ seed.length < 48
  · rw [if_pos c1, if_pos (by omega)]
  rw [if_neg c1, h1, ok_bind]
  by_cases c2 : sk.length < 132
  · simp only [if_pos c2]
    rw [if_pos (by omega)]
  · simp only [if_neg c2]
    rw [if_neg (by omega)]

end Qrl
