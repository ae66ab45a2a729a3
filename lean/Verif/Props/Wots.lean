import Verif.Proof.WotsGen
/-!
# C23, C24: WOTS+ one-time signatures (src/xmss-alt/wots.c)
-/

namespace Qrl.Props

open Outcome

/-- Two hash addresses that agree on layer, tree, type and key number; the remaining words (chain, hash,
key-and-mask) are scratch. -/
def SameKeyAddress (a b : Adrs) : Prop :=
  a.w0 = b.w0 ∧ a.w1 = b.w1 ∧ a.w2 = b.w2 ∧ a.w3 = b.w3 ∧ a.w4 = b.w4

/-- C23. For every `w` of the interface, every 32-byte digest, secret seed, public seed and address:
signing succeeds, the signature consists of `len` strings of 32 bytes, and recovering the public key from it
succeeds and gives the generated public key. The scratch words of the three addresses may differ. -/
theorem C23_wots_correct (S : Sha256) (hf : HashFn) (w : Nat) (hw : w = 2 ∨ w = 4 ∨ w = 16 ∨ w = 256)
    (p : WotsParams) (hp : wotsSetParams w = ok p) (msg seed ps : Bytes) (hm : msg.length = 32)
    (a1 a2 a3 : Adrs) (h12 : SameKeyAddress a1 a2) (h13 : SameKeyAddress a1 a3) :
    ∃ sig a1' pk a2', wotsSign S hf p msg seed ps a1 = ok (sig, a1') ∧
      sig.length = p.len ∧ (∀ x ∈ sig, x.length = 32) ∧
      wotsPkFromSig S hf p sig msg ps a2 = ok (pk, a2') ∧
      pk = (wotsPkgen S hf p seed ps a3).1 := by
  obtain ⟨_, k, q, hg⟩ := goodParams_of hw hp
  obtain ⟨x0, x1, x2, x3, x4, b1, c1, d1⟩ := a1
  obtain ⟨_, _, _, _, _, b2, c2, d2⟩ := a2
  obtain ⟨_, _, _, _, _, b3, c3, d3⟩ := a3
  obtain ⟨rfl, rfl, rfl, rfl, rfl⟩ := h12
  obtain ⟨rfl, rfl, rfl, rfl, rfl⟩ := h13
  simp only
  have hds := signDigits_eq p k q hg msg hm
  have hlen := length_digitString p k q hg msg hm
  have hlt := digitString_lt p k q hg msg
  generalize digitString p k q msg = ds at hds hlen hlt
  have hex := length_expandSeed S hf seed p.len
  have hzip : ∀ y ∈ (expandSeed S hf seed p.len).zip ds, y.2 ≤ p.w := by
    intro y hy; exact Nat.le_of_lt (hlt y.2 (List.of_mem_zip hy).2)
  have hsig := wotsSignLoop_gen S hf p ps x0 x1 x2 x3 x4 _ hzip 0 b1 c1 d1
  have hsl : ((((expandSeed S hf seed p.len).zip ds).zipIdx 0).map
      fun (x, k) => chainAt S hf ps x0 x1 x2 x3 x4 k 0 x.2 x.1).length = p.len := by simp [hex, hlen]
  refine ⟨(wotsSignLoop S hf p ps 0 ((expandSeed S hf seed p.len).zip ds) ⟨x0, x1, x2, x3, x4, b1, c1, d1⟩).1,
    (wotsSignLoop S hf p ps 0 ((expandSeed S hf seed p.len).zip ds) ⟨x0, x1, x2, x3, x4, b1, c1, d1⟩).2,
    (pkFromSigLoop S hf p ps 0 ((((((expandSeed S hf seed p.len).zip ds).zipIdx 0).map
      fun (x, k) => chainAt S hf ps x0 x1 x2 x3 x4 k 0 x.2 x.1)).zip ds) ⟨x0, x1, x2, x3, x4, b2, c2, d2⟩).1,
    (pkFromSigLoop S hf p ps 0 ((((((expandSeed S hf seed p.len).zip ds).zipIdx 0).map
      fun (x, k) => chainAt S hf ps x0 x1 x2 x3 x4 k 0 x.2 x.1)).zip ds) ⟨x0, x1, x2, x3, x4, b2, c2, d2⟩).2,
    ?_, ?_, ?_, ?_, ?_⟩
  · simp only [wotsSign, hds, ok_bind]
  · rw [hsig]; exact hsl
  · rw [hsig]
    intro x hx
    obtain ⟨⟨⟨y, d⟩, ch⟩, hy, rfl⟩ := List.mem_map.mp hx
    have hy := (List.of_mem_zip (List.fst_mem_of_mem_zipIdx hy)).1
    refine length_chainAt _ _ _ _ _ _ _ _ _ _ _ _ ?_
    rw [expandSeed_eq] at hy
    obtain ⟨_, _, rfl⟩ := List.mem_map.mp hy
    exact length_PRF ..
  · simp only [wotsPkFromSig, verifyDigits_eq_signDigits, hds, ok_bind, hsig]
  · rw [wotsPkgen, pkgenLoop_gen, pkFromSigLoop_gen]
    · exact chains_complete S hf p ps x0 x1 x2 x3 x4 _ ds 0 (by rw [hex, hlen]) hlt
    · intro y hy; exact hlt y.2 (List.of_mem_zip hy).2

/-- C24. The chain positions of a digest: `wots_sign` and `wots_pkFromSig` compute the same ones, there are
`len` of them and each is below `w`. -/
theorem C24_digits (w : Nat) (hw : w = 2 ∨ w = 4 ∨ w = 16 ∨ w = 256) (p : WotsParams)
    (hp : wotsSetParams w = ok p) (m : Bytes) (hm : m.length = 32) :
    ∃ ds, signDigits p m = ok ds ∧ verifyDigits p m = ok ds ∧ ds.length = p.len ∧ ∀ d ∈ ds, d < w := by
  obtain ⟨hpw, k, q, hg⟩ := goodParams_of hw hp
  refine ⟨_, signDigits_eq p k q hg m hm, signDigits_eq p k q hg m hm, length_digitString p k q hg m hm, ?_⟩
  rw [← hpw]; exact digitString_lt p k q hg m

/-- C24. For `w` = 2, 4 or 16: of two different digests, each has some chain position strictly larger than
the other's, so no signature can be turned into one on another digest by only hashing forward. -/
theorem C24_no_forward_forgery (w : Nat) (hw : w = 2 ∨ w = 4 ∨ w = 16) (p : WotsParams)
    (hp : wotsSetParams w = ok p) (m m' : Bytes) (hm : m.length = 32) (hm' : m'.length = 32)
    (hne : m ≠ m') (ds ds' : List Nat) (h : signDigits p m = ok ds) (h' : signDigits p m' = ok ds') :
    ∃ (i d d' : Nat), ds[i]? = some d ∧ ds'[i]? = some d' ∧ d' < d := by
  have key : ∀ k q, GoodParams p k q →
      k * (q * ((p.len2 * k + 7) / 8) - p.len2) = 8 - ((p.len2 * k) % 8) →
      (p.len1 * (p.w - 1)) <<< (8 - ((p.len2 * k) % 8)) < 256 ^ ((p.len2 * k + 7) / 8) →
      ∃ (i d d' : Nat), ds[i]? = some d ∧ ds'[i]? = some d' ∧ d' < d := by
    intro k q hg hs hv
    rw [signDigits_eq p k q hg m hm] at h
    rw [signDigits_eq p k q hg m' hm'] at h'
    cases h; cases h'
    apply Classical.byContradiction
    intro hno
    apply hne
    apply antichain p k q hg hs hv m m' hm hm'
    intro i
    have hl := length_digitString p k q hg m hm
    have hl' := length_digitString p k q hg m' hm'
    by_cases hi : i < p.len
    · have h1 : i < (digitString p k q m).length := by omega
      have h2 : i < (digitString p k q m').length := by omega
      rw [List.getD_eq_getElem?_getD, List.getD_eq_getElem?_getD, List.getElem?_eq_getElem h1,
        List.getElem?_eq_getElem h2]
      simp only [Option.getD_some]
      apply Nat.le_of_not_lt
      intro hlt
      exact hno ⟨i, _, _, List.getElem?_eq_getElem h1, List.getElem?_eq_getElem h2, hlt⟩
    · rw [List.getD_eq_getElem?_getD, List.getElem?_eq_none (by omega)]; simp
  rcases hw with rfl | rfl | rfl
  · rw [params2] at hp; cases hp; exact key 1 8 good2 (by decide) (by decide)
  · rw [params4] at hp; cases hp; exact key 2 4 good4 (by decide) (by decide)
  · rw [params16] at hp; cases hp; exact key 4 2 good16 (by decide) (by decide)

/-- The digest 255, 1, 0, …, 0. -/
def digestHigh : Bytes := 255 :: 1 :: List.replicate 30 0
/-- The digest 0, …, 0. -/
def digestLow : Bytes := List.replicate 32 0

theorem digits256_low : ∃ ds, signDigits ⟨32, 2, 34, 256, 8, 1088⟩ digestLow = ok ds ∧
    ∃ ds', signDigits ⟨32, 2, 34, 256, 8, 1088⟩ digestHigh = ok ds' ∧ ds.length = ds'.length ∧
      (ds.zip ds').all (fun x => x.1 ≤ x.2) = true := by
  refine ⟨_, signDigits_eq _ 8 1 good256 _ (by decide), _, signDigits_eq _ 8 1 good256 _ (by decide), ?_, ?_⟩
  · decide +kernel
  · decide +kernel

/-- C24 fails for `w = 256`: every chain position of the zero digest is at most that of another digest, so a
signature on the zero digest turns into one on the other by hashing forward only. (The high byte of the
checksum is shifted out, src/xmss-alt/wots.c:141-148.) -/
theorem C24_w256_refuted : ∃ p, wotsSetParams 256 = ok p ∧ ∃ m m' : Bytes, m.length = 32 ∧ m'.length = 32 ∧
    m ≠ m' ∧ ∃ ds ds', signDigits p m = ok ds ∧ signDigits p m' = ok ds' ∧ ds.length = ds'.length ∧
      ∀ (i d d' : Nat), ds[i]? = some d → ds'[i]? = some d' → d ≤ d' := by
  obtain ⟨ds, h1, ds', h2, h3, h4⟩ := digits256_low
  refine ⟨_, params256, digestLow, digestHigh, by decide, by decide, by decide, ds, ds', h1, h2, h3, ?_⟩
  intro i d d' hd hd'
  have hz : (ds.zip ds')[i]? = some (d, d') := by simp [List.getElem?_zip_eq_some, hd, hd']
  have := List.all_eq_true.mp h4 _ (List.mem_of_getElem? hz)
  simpa using this

example : ∃ (i d d' : Nat), (∃ ds, signDigits ⟨64, 3, 67, 16, 4, 2144⟩ digestLow = ok ds ∧ ds[i]? = some d) ∧
    (∃ ds', signDigits ⟨64, 3, 67, 16, 4, 2144⟩ digestHigh = ok ds' ∧ ds'[i]? = some d') ∧ d' < d := by
  obtain ⟨ds, h1, _⟩ := C24_digits 16 (by decide) _ params16 digestLow (by decide)
  obtain ⟨ds', h1', _⟩ := C24_digits 16 (by decide) _ params16 digestHigh (by decide)
  obtain ⟨i, d, d', e1, e2, e3⟩ := C24_no_forward_forgery 16 (by decide) _ params16 digestLow digestHigh (by decide)
    (by decide) (by decide) ds ds' h1 h1'
  exact ⟨i, d, d', ⟨ds, h1, e1⟩, ⟨ds', h1', e2⟩, e3⟩

end Qrl.Props
