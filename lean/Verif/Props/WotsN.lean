import Verif.Proof.WotsN
/-!
# C94: the hash functions and WOTS+ for `n` other than 32 (src/xmss-alt/hash.c, src/xmss-alt/wots.c)
-/

namespace Qrl.Props

open Outcome

/-- C94. The five supported pairs of hash function and output length, and no other. -/
theorem C94_pairs (S : Sha256) (hf n : Nat) :
    (Spec.hashN S hf n).isSome = true ↔
      (hf, n) ∈ [(0, 32), (1, 32), (1, 64), (2, 32), (2, 64)] := by
  simp only [Spec.hashN, List.mem_cons, Prod.mk.injEq, List.not_mem_nil, or_false]
  split
  · next h => simp [h]
  · next h0 =>
    split
    · next h => rcases h with ⟨rfl, h | h⟩ <;> simp [h]
    · next h1 =>
      split
      · next h => rcases h with ⟨rfl, h | h⟩ <;> simp [h]
      · next h2 =>
        simp only [Option.isSome_none, Bool.false_eq_true, false_iff]
        rintro (h | h | h | h | h)
        · exact h0 h
        · exact h1 ⟨h.1, .inl h.2⟩
        · exact h1 ⟨h.1, .inr h.2⟩
        · exact h2 ⟨h.1, .inl h.2⟩
        · exact h2 ⟨h.1, .inr h.2⟩

/-- C94. For a supported pair the four functions of hash.c return 0 and write the value of RFC 8391 for this `n`, `n` bytes long,
whatever the output held before. (`h_msg` for a key of `3 * n` bytes.) -/
theorem C94_hash_values (S : Sha256) (hf n : Nat) (G : Bytes → Bytes) (h : Spec.hashN S hf n = some G)
    (m key ps x y : Bytes) (addr : Adrs) (out : Slot) :
    prfN S hf (some m) (some key) n out = (0, some (Spec.PRFn G n key m)) ∧
    hMsgN S hf (some m) (some key) (3 * n) n out = (0, some (Spec.HmsgN G n key m)) ∧
    hashFN S hf (some x) ps addr n out = (0, some (Spec.Fn G n ps addr x), addr.setKeyAndMask 1) ∧
    hashHN S hf (some (x ++ y)) ps addr n out = (0, some (Spec.Hn G n ps addr x y), addr.setKeyAndMask 2) ∧
    ∀ z, (G z).length = n := by
  refine ⟨coreHashN_some h 3 key m out, ?_, hashFN_some h x ps addr out, hashHN_some h x y ps addr out, length_hashN h⟩
  have hn : n = 32 ∨ n = 64 := by
    have := (C94_pairs S hf n).mp (by rw [h]; rfl)
    simp only [List.mem_cons, Prod.mk.injEq, List.not_mem_nil, or_false] at this
    omega
  rw [hMsgN, if_neg (by rcases hn with rfl | rfl <;> decide)]
  exact coreHashN_some h 2 key m out

/-- C94. For every other pair they return 1 and leave the output as it was, whatever the buffers hold. -/
theorem C94_hash_unsupported (S : Sha256) (hf n : Nat) (h : Spec.hashN S hf n = none)
    (m key x : Slot) (keylen : Nat) (ps : Bytes) (addr : Adrs) (out : Slot) :
    prfN S hf m key n out = (1, out) ∧
    hMsgN S hf m key keylen n out = (1, out) ∧
    ((hashFN S hf x ps addr n out).1 = 1 ∧ (hashFN S hf x ps addr n out).2.1 = out) ∧
    ((hashHN S hf x ps addr n out).1 = 1 ∧ (hashHN S hf x ps addr n out).2.1 = out) := by
  refine ⟨coreHashN_none h 3 key m out, ?_, ?_, ?_⟩
  · rw [hMsgN, coreHashN_none h]; split <;> rfl
  · rw [hashFN_none h]; exact ⟨rfl, rfl⟩
  · rw [hashHN_none h]; exact ⟨rfl, rfl⟩

/-- C94. `h_msg` with a key that is not `3 * n` bytes long returns 1 and leaves the output as it was. -/
theorem C94_hmsg_keylen (S : Sha256) (hf n keylen : Nat) (hn : 3 * n < 2 ^ 32) (hk : keylen ≠ 3 * n) (m key out : Slot) :
    hMsgN S hf m key keylen n out = (1, out) := by
  rw [hMsgN, Nat.mod_eq_of_lt hn, if_pos hk]

/-- C94. The parameters `wots_set_params` computes are those of RFC 8391, section 3.1.1. -/
theorem C94_params (n w : Nat) (hn : 1 ≤ n) (hn' : n ≤ 4096) (hw : w = 2 ∨ w = 4 ∨ w = 16 ∨ w = 256) :
    ∃ p, wotsSetParamsN n w = ok p ∧ p.w = w ∧ 2 ^ p.logW = w ∧ p.len1 * p.logW = 8 * n ∧ p.len1 = Spec.len1N n w ∧
      p.len2 = Spec.len2N n w ∧ p.len = p.len1 + p.len2 ∧ p.keysize = p.len * n := by
  obtain ⟨h1, k, q, hg⟩ := wotsSetParamsN_eq hn hn' hw
  refine ⟨_, h1, rfl, ?_, ?_, rfl, rfl, rfl, rfl⟩
  · have e1 := hg.w; have e2 := hg.logW
    dsimp only at e1 e2 ⊢
    rw [e2]; exact e1.symm
  · have e1 := hg.len1; have e2 := hg.logW; have e3 := hg.kq
    dsimp only at e1 e2 ⊢
    rw [e1, e2, Nat.mul_assoc, Nat.mul_comm q k, e3, Nat.mul_comm]

/-- C94. For a supported pair, every `w` of the interface and every digest of `n` bytes: signing succeeds and gives the chain
values of RFC 8391 at the positions of the digest, `len` strings of `n` bytes; the public key computed from the signature is the
generated one, which is that of RFC 8391. Neither depends on what the buffers held before or on the scratch words of the
addresses. -/
theorem C94_wots_correct (S : Sha256) (hf n w : Nat) (G : Bytes → Bytes) (h : Spec.hashN S hf n = some G)
    (hw : w = 2 ∨ w = 4 ∨ w = 16 ∨ w = 256) (p : WotsParams) (hp : wotsSetParamsN n w = ok p)
    (msg seed ps : Bytes) (hm : msg.length = n) (sig0 pk0 : List Slot) (hs0 : sig0.length = p.len) (hk0 : pk0.length = p.len)
    (a : Adrs) (b1 c1 d1 b2 c2 d2 b3 c3 d3 : Nat) :
    ∃ ds sig, signDigits p msg = ok ds ∧ ds.length = p.len ∧ (∀ d ∈ ds, d < w) ∧
      sig = Spec.wotsSigN G n ds seed ps a ∧ sig.length = p.len ∧ (∀ x ∈ sig, x.length = n) ∧
      (wotsPkgenN S hf n p pk0 seed ps { a with w5 := b1, w6 := c1, w7 := d1 }).1 =
        (Spec.wotsPkN G n w p.len seed ps a).map some ∧
      (∃ a', wotsSignN S hf n p sig0 msg seed ps { a with w5 := b2, w6 := c2, w7 := d2 } = ok (sig.map some, a')) ∧
      (∃ a', wotsPkFromSigN S hf n p (sig.map some) msg ps { a with w5 := b3, w6 := c3, w7 := d3 } =
        ok ((Spec.wotsPkN G n w p.len seed ps a).map some, a')) := by
  have hn : n = 32 ∨ n = 64 := by
    have := (C94_pairs S hf n).mp (by rw [h]; rfl)
    simp only [List.mem_cons, Prod.mk.injEq, List.not_mem_nil, or_false] at this
    omega
  obtain ⟨he, k, q, hg⟩ := wotsSetParamsN_eq (n := n) (w := w) (by omega) (by omega) hw
  rw [he] at hp
  have hpw : p.w = w := by cases hp; rfl
  have hg : GoodN n p k q := by cases hp; exact hg
  have hds := signDigits_N hg msg hm
  have hdl := length_digitStringN hg msg hm
  have hdlt := digitStringN_lt hg msg
  generalize digitString p k q msg = ds at hds hdl hdlt
  -- the secret starts
  have hexp : ∀ os : List Slot, os.length = p.len → expandSeedN S hf n seed 0 os =
      ((List.range p.len).map fun ch => Spec.PRFn G n seed (Spec.be 32 ch)).map some := by
    intro os ho
    rw [expandSeedN_some h, ho, List.map_map, List.range_eq_range']; rfl
  have hxs : ((List.range p.len).map fun ch => Spec.PRFn G n seed (Spec.be 32 ch)).length = p.len := by simp
  have hpk : (((List.range p.len).map fun ch => Spec.PRFn G n seed (Spec.be 32 ch)).zipIdx 0).map
      (fun (x, k) => Spec.chainN G n ps a k 0 (p.w - 1) x) = Spec.wotsPkN G n w p.len seed ps a := by
    rw [zipIdx_map_range, List.map_map, hpw]; rfl
  have hsig : (((((List.range p.len).map fun ch => Spec.PRFn G n seed (Spec.be 32 ch)).zip ds).zipIdx 0).map
      fun (x, k) => Spec.chainN G n ps a k 0 x.2 x.1) = Spec.wotsSigN G n ds seed ps a := by
    apply List.ext_getElem
    · simp [Spec.wotsSigN, hdl]
    · intro i h1 h2; simp [Spec.wotsSigN]
  have hzip : ∀ (xs : List Bytes), (xs.map some).zip ds = (xs.zip ds).map fun y => (some y.1, y.2) := by
    intro xs; rw [List.zip_map_left]; rfl
  refine ⟨ds, _, hds, hdl, fun d hd => hpw ▸ hdlt d hd, rfl, ?_, ?_, ?_, ?_, ?_⟩
  · simp [Spec.wotsSigN, hdl]
  · intro x hx
    obtain ⟨⟨d, ch⟩, _, rfl⟩ := List.mem_map.mp hx
    exact length_chainN h ps a ch d 0 _ (length_hashN h _)
  · rw [wotsPkgenN, hexp pk0 hk0, pkgenLoopN_some h p ps a, hpk]
  · have e := wotsSignLoopN_some h p ps a (((List.range p.len).map fun ch => Spec.PRFn G n seed (Spec.be 32 ch)).zip ds)
      (fun y hy => Nat.le_of_lt (hdlt y.2 (List.of_mem_zip hy).2)) 0 b2 c2 d2
    rw [hsig] at e
    rw [wotsSignN, hds, ok_bind, hexp sig0 hs0, hzip]
    exact ⟨_, congrArg ok (Prod.ext e rfl)⟩
  · have e := pkFromSigLoopN_some h p ps a ((Spec.wotsSigN G n ds seed ps a).zip ds)
      (fun y hy => hdlt y.2 (List.of_mem_zip hy).2) 0 b3 c3 d3
    have ec := chainsN_complete G n p ps a ((List.range p.len).map fun ch => Spec.PRFn G n seed (Spec.be 32 ch)) ds 0
      (by rw [hxs, hdl]) hdlt
    rw [hsig, hpk] at ec
    rw [ec] at e
    rw [wotsPkFromSigN, verifyDigits_eq_signDigits, hds, ok_bind, hzip]
    exact ⟨_, congrArg ok (Prod.ext e rfl)⟩

/-- C94. For every other pair nothing is reported and nothing is hashed: `wots_pkgen` and `wots_sign` leave their output buffer as it
was, and `wots_pkFromSig` gives back the signature itself, for every digest. So any string is a valid signature on every digest for
the public key equal to it. -/
theorem C94_wots_unsupported (S : Sha256) (hf n w : Nat) (h : Spec.hashN S hf n = none) (hn : 1 ≤ n) (hn' : n ≤ 4096)
    (hw : w = 2 ∨ w = 4 ∨ w = 16 ∨ w = 256) (p : WotsParams) (hp : wotsSetParamsN n w = ok p)
    (msg seed ps : Bytes) (hm : msg.length = n) (buf : List Slot) (hb : buf.length = p.len) (a1 a2 a3 : Adrs) :
    (wotsPkgenN S hf n p buf seed ps a1).1 = buf ∧
    (∃ a', wotsSignN S hf n p buf msg seed ps a2 = ok (buf, a')) ∧
    (∃ a', wotsPkFromSigN S hf n p buf msg ps a3 = ok (buf, a')) := by
  obtain ⟨he, k, q, hg⟩ := wotsSetParamsN_eq hn hn' hw
  rw [he] at hp
  have hg : GoodN n p k q := by cases hp; exact hg
  have hds := signDigits_N hg msg hm
  have hdl := length_digitStringN hg msg hm
  generalize digitString p k q msg = ds at hds hdl
  have hz : (buf.zip ds).map (·.1) = buf := by
    rw [show (fun x : Slot × Nat => x.1) = Prod.fst from rfl, List.map_fst_zip (by omega)]
  refine ⟨?_, ?_, ?_⟩
  · rw [wotsPkgenN, expandSeedN_none h, pkgenLoopN_none h]
  · have e := wotsSignLoopN_none h p ps (buf.zip ds) 0 a2
    rw [hz] at e
    refine ⟨(wotsSignLoopN S hf n p ps 0 (buf.zip ds) a2).2, ?_⟩
    rw [wotsSignN, hds, ok_bind, expandSeedN_none h]
    exact congrArg ok (Prod.ext e rfl)
  · have e := pkFromSigLoopN_none h p ps (buf.zip ds) 0 a3
    rw [hz] at e
    refine ⟨(pkFromSigLoopN S hf n p ps 0 (buf.zip ds) a3).2, ?_⟩
    rw [wotsPkFromSigN, verifyDigits_eq_signDigits, hds, ok_bind]
    exact congrArg ok (Prod.ext e rfl)

/-- C94. `n = 64` and `w` = 2, 4 or 16: of two different digests, each has some chain position strictly larger than the other's. -/
theorem C94_no_forward_forgery (w : Nat) (hw : w = 2 ∨ w = 4 ∨ w = 16) (p : WotsParams)
    (hp : wotsSetParamsN 64 w = ok p) (m m' : Bytes) (hm : m.length = 64) (hm' : m'.length = 64)
    (hne : m ≠ m') (ds ds' : List Nat) (h : signDigits p m = ok ds) (h' : signDigits p m' = ok ds') :
    ∃ (i d d' : Nat), ds[i]? = some d ∧ ds'[i]? = some d' ∧ d' < d := by
  have key : ∀ k q, GoodN 64 p k q →
      k * (q * ((p.len2 * k + 7) / 8) - p.len2) = 8 - ((p.len2 * k) % 8) →
      (p.len1 * (p.w - 1)) <<< (8 - ((p.len2 * k) % 8)) < 256 ^ ((p.len2 * k + 7) / 8) →
      ∃ (i d d' : Nat), ds[i]? = some d ∧ ds'[i]? = some d' ∧ d' < d := by
    intro k q hg hs hv
    rw [signDigits_N hg m hm] at h
    rw [signDigits_N hg m' hm'] at h'
    cases h; cases h'
    apply Classical.byContradiction
    intro hno
    apply hne
    apply antichainN hg hs hv m m' hm hm'
    intro i
    have hl := length_digitStringN hg m hm
    have hl' := length_digitStringN hg m' hm'
    by_cases hi : i < p.len
    · have h1 : i < (digitString p k q m).length := by omega
      have h2 : i < (digitString p k q m').length := by omega
      rw [List.getD_eq_getElem?_getD, List.getD_eq_getElem?_getD, List.getElem?_eq_getElem h1,
        List.getElem?_eq_getElem h2]
      simp only [Option.getD_some]
      apply Nat.le_of_not_lt
      intro hlt
      exact hno ⟨i, _, _, List.getElem?_eq_getElem h1, List.getElem?_eq_getElem h2, hlt⟩
    · rw [List.getD_eq_getElem?_getD, List.getElem?_eq_none (by omega)]; simp
  rcases hw with rfl | rfl | rfl
  · rw [show wotsSetParamsN 64 2 = ok ⟨512, 10, 522, 2, 1, 33408⟩ by decide +kernel] at hp
    cases hp; exact key 1 8 (by constructor <;> decide) (by decide) (by decide)
  · rw [show wotsSetParamsN 64 4 = ok ⟨256, 5, 261, 4, 2, 16704⟩ by decide +kernel] at hp
    cases hp; exact key 2 4 (by constructor <;> decide) (by decide) (by decide)
  · rw [show wotsSetParamsN 64 16 = ok ⟨128, 3, 131, 16, 4, 8384⟩ by decide +kernel] at hp
    cases hp; exact key 4 2 (by constructor <;> decide) (by decide) (by decide)

/-- The digest 255, 1, 0, …, 0 of 64 bytes. -/
def digestHigh64 : Bytes := 255 :: 1 :: List.replicate 62 0
/-- The digest 0, …, 0 of 64 bytes. -/
def digestLow64 : Bytes := List.replicate 64 0

/-- C94. `n = 64` and `w = 256`, as for `n = 32` (`C24_w256_refuted`): every chain position of the zero digest is at most that of
another digest. -/
theorem C94_w256_refuted : ∃ p, wotsSetParamsN 64 256 = ok p ∧ ∃ m m' : Bytes, m.length = 64 ∧ m'.length = 64 ∧
    m ≠ m' ∧ ∃ ds ds', signDigits p m = ok ds ∧ signDigits p m' = ok ds' ∧ ds.length = ds'.length ∧
      ∀ (i d d' : Nat), ds[i]? = some d → ds'[i]? = some d' → d ≤ d' := by
  have hg : GoodN 64 ⟨64, 2, 66, 256, 8, 4224⟩ 8 1 := by constructor <;> decide
  have h4 : ((digitString ⟨64, 2, 66, 256, 8, 4224⟩ 8 1 digestLow64).zip
      (digitString ⟨64, 2, 66, 256, 8, 4224⟩ 8 1 digestHigh64)).all (fun x => x.1 ≤ x.2) = true := by decide +kernel
  refine ⟨⟨64, 2, 66, 256, 8, 4224⟩, by decide +kernel, digestLow64, digestHigh64, by decide, by decide, by decide,
    _, _, signDigits_N hg _ (by decide), signDigits_N hg _ (by decide), ?_, ?_⟩
  · rw [length_digitStringN hg _ (by decide), length_digitStringN hg _ (by decide)]
  · intro i d d' hd hd'
    have hz : ((digitString ⟨64, 2, 66, 256, 8, 4224⟩ 8 1 digestLow64).zip
      (digitString ⟨64, 2, 66, 256, 8, 4224⟩ 8 1 digestHigh64))[i]? = some (d, d') := by
      rw [List.getElem?_zip_eq_some]; exact ⟨hd, hd'⟩
    have := List.all_eq_true.mp h4 (d, d') (List.mem_of_getElem? hz)
    simpa using this

/-! ## The hypotheses are met -/

example (S : Sha256) : Spec.hashN S 2 64 = some (Qrl.shake256 64) ∧ Spec.hashN S 0 64 = none ∧ Spec.hashN S 1 24 = none ∧
    Spec.hashN S 7 32 = none ∧ Spec.hashN S 0 32 = some S.hash := by
  refine ⟨rfl, rfl, rfl, rfl, rfl⟩

example : wotsSetParamsN 64 16 = ok ⟨128, 3, 131, 16, 4, 8384⟩ := by decide +kernel

/-- SHAKE-256 with 64 bytes, `w = 16`: 131 strings. -/
example (S : Sha256) (seed ps : Bytes) : ∃ sig : List Bytes, sig.length = 131 ∧
    (∃ a', wotsSignN S 2 64 ⟨128, 3, 131, 16, 4, 8384⟩ (List.replicate 131 none) digestHigh64 seed ps {} =
      ok (sig.map some, a')) := by
  obtain ⟨_, sig, _, _, _, _, hl, _, _, h, _⟩ := C94_wots_correct S 2 64 16 _ rfl (by decide) ⟨128, 3, 131, 16, 4, 8384⟩
    (by decide +kernel) digestHigh64 seed ps (by decide) (List.replicate 131 none) (List.replicate 131 none) List.length_replicate
    List.length_replicate {} 0 0 0 0 0 0 0 0 0
  exact ⟨sig, hl, h⟩

/-- SHA2-256 with 64 bytes: 131 strings of zeros verify on every digest under the public key of zeros, and `wots_pkgen` leaves such a
buffer as it is. -/
example (S : Sha256) (msg ps : Bytes) (hm : msg.length = 64) :
    ∃ a', wotsPkFromSigN S 0 64 ⟨128, 3, 131, 16, 4, 8384⟩ (List.replicate 131 (some (List.replicate 64 0))) msg ps {} =
      ok (List.replicate 131 (some (List.replicate 64 0)), a') :=
  (C94_wots_unsupported S 0 64 16 rfl (by decide) (by decide) (by decide) ⟨128, 3, 131, 16, 4, 8384⟩ (by decide +kernel)
    msg [] ps hm _ List.length_replicate {} {} {}).2.2

example : ∃ (i d d' : Nat), (∃ ds, signDigits ⟨128, 3, 131, 16, 4, 8384⟩ digestLow64 = ok ds ∧ ds[i]? = some d) ∧
    (∃ ds', signDigits ⟨128, 3, 131, 16, 4, 8384⟩ digestHigh64 = ok ds' ∧ ds'[i]? = some d') ∧ d' < d := by
  have hg : GoodN 64 ⟨128, 3, 131, 16, 4, 8384⟩ 4 2 := by constructor <;> decide
  have h := signDigits_N hg digestLow64 (by decide)
  have h' := signDigits_N hg digestHigh64 (by decide)
  obtain ⟨i, d, d', e1, e2, e3⟩ := C94_no_forward_forgery 16 (by decide) ⟨128, 3, 131, 16, 4, 8384⟩ (by decide +kernel)
    digestLow64 digestHigh64 (by decide) (by decide) (by decide) _ _ h h'
  exact ⟨i, d, d', ⟨_, h, e1⟩, ⟨_, h', e2⟩, e3⟩

end Qrl.Props
