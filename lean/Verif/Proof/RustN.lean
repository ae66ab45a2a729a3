import Verif.Model.RustN
import Verif.Proof.RustSim
import Verif.Proof.WotsN
/-!
# Proofs about the Rust `xmss_verify_sig` for every `n`
-/

namespace Qrl.Rs

open Res

/-! ## No `Err` -/

/-- Not an `Err`. -/
def NE {α : Type} (x : Res α) : Prop := ∀ e, x ≠ err e

theorem NE.ok {α : Type} (a : α) : NE (Res.ok a) := fun _ h => by cases h
theorem NE.panic {α : Type} : NE (Res.panic : Res α) := fun _ h => by cases h
theorem NE.bind {α β : Type} {x : Res α} {f : α → Res β} (hx : NE x) (hf : ∀ a, NE (f a)) : NE (x >>= f) := by
  cases x with
  | ok a => exact hf a
  | err e => exact absurd rfl (hx e)
  | panic => exact NE.panic
theorem NE.ite {α : Type} {c : Prop} [Decidable c] {x y : Res α} (hx : NE x) (hy : NE y) : NE (if c then x else y) := by
  split
  · exact hx
  · exact hy

theorem ne_slice (l : Bytes) (o n : Nat) : NE (slice l o n) := NE.ite (NE.ok _) NE.panic
theorem ne_rd {α : Type} (l : List α) (i : Nat) : NE (rd l i) := by
  rw [rd.eq_def]; split
  · exact NE.ok _
  · exact NE.panic
theorem ne_wr {α : Type} (l : List α) (i : Nat) (x : α) : NE (wr l i x) := NE.ite (NE.ok _) NE.panic
theorem ne_u32sub (b : Build) (x y : Nat) : NE (u32sub b x y) := by
  rw [u32sub.eq_def]; refine NE.ite (NE.ok _) ?_
  cases b
  · exact NE.panic
  · exact NE.ok _
theorem ne_u64sub (b : Build) (x y : Nat) : NE (u64sub b x y) := by
  rw [u64sub.eq_def]; refine NE.ite (NE.ok _) ?_
  cases b
  · exact NE.panic
  · exact NE.ok _
theorem ne_shr8 (b : Build) (x y : Nat) : NE (shr8 b x y) := by
  rw [shr8.eq_def]; refine NE.ite (NE.ok _) ?_
  cases b
  · exact NE.panic
  · exact NE.ok _
theorem ne_toByteN (v n : Nat) : NE (toByteN v n) := NE.ite NE.panic (NE.ok _)

theorem ne_xorBlock (s : KState) (r : Nat) (t : Bytes) : NE (xorBlock s r t) := NE.ite NE.panic (NE.ok _)

theorem ne_absorbLoop (r mt : Nat) (mlen : Nat) : ∀ (s : KState) (mc : Bytes), NE (absorbLoop r mt s mc mlen) := by
  induction mlen using Nat.strongRecOn with
  | _ mlen ih =>
    intro s mc
    rw [absorbLoop.eq_def]
    split
    · rename_i h
      refine NE.bind (ne_xorBlock _ _ _) fun s => NE.ite (ih _ (by omega) _ _) NE.panic
    · exact NE.ok _

theorem ne_keccakAbsorb (s : KState) (r : Nat) (m : Bytes) (mlen : Nat) (p : UInt8) : NE (keccakAbsorb s r m mlen p) := by
  rw [keccakAbsorb]
  refine NE.bind (ne_absorbLoop _ _ _ _ _) fun _ => NE.bind (ne_slice _ _ _) fun _ => NE.bind (ne_wr _ _ _) fun _ =>
    NE.bind (ne_rd _ _) fun _ => NE.bind (ne_wr _ _ _) fun _ => ne_xorBlock _ _ _

theorem ne_fips128 (o : Nat) (m : Bytes) (l : Nat) : NE (fipsShake128 o m l) := by
  rw [fipsShake128]
  exact NE.bind (ne_keccakAbsorb _ _ _ _ _) fun _ => NE.ite (NE.ok _) (NE.ok _)
theorem ne_fips256 (o : Nat) (m : Bytes) (l : Nat) : NE (fipsShake256 o m l) := by
  rw [fipsShake256]
  exact NE.bind (ne_keccakAbsorb _ _ _ _ _) fun _ => NE.ite (NE.ok _) (NE.ok _)

variable (S : Sha256) (hf : HashFn)

theorem ne_coreHashN (n t : Nat) (key : Bytes) (kl : Nat) (inp : Bytes) (il : Nat) (old : Bytes) :
    NE (coreHashN S hf n t key kl inp il old) := by
  rw [coreHashN]
  refine NE.ite NE.panic (NE.bind (ne_toByteN _ _) fun _ => NE.bind (ne_slice _ _ _) fun _ => NE.bind (ne_slice _ _ _) fun _ => ?_)
  cases hf
  · exact NE.ite (NE.ok _) (NE.ok _)
  · exact NE.ite (NE.bind (ne_fips128 _ _ _) fun _ => NE.ok _) (NE.ok _)
  · exact NE.ite (NE.bind (ne_fips256 _ _ _) fun _ => NE.ok _) (NE.ok _)

theorem ne_hMsgN (n : Nat) (inp : Bytes) (il : Nat) (key : Bytes) (kl : Nat) (old : Bytes) : NE (hMsgN S hf n inp il key kl old) :=
  NE.ite (NE.ok _) (NE.ite NE.panic (ne_coreHashN _ _ _ _ _ _ _ _ _))

theorem ne_hashHN (n : Nat) (inp ps : Bytes) (a : Adrs) (old : Bytes) : NE (hashHN S hf n inp ps a old) := by
  rw [hashHN]
  exact NE.bind (ne_coreHashN _ _ _ _ _ _ _ _ _) fun _ => NE.bind (ne_coreHashN _ _ _ _ _ _ _ _ _) fun _ =>
    NE.bind (ne_coreHashN _ _ _ _ _ _ _ _ _) fun _ => NE.bind (ne_slice _ _ _) fun _ =>
    NE.bind (ne_coreHashN _ _ _ _ _ _ _ _ _) fun _ => NE.ok _

theorem ne_hashFN (n : Nat) (inp ps : Bytes) (a : Adrs) (old : Bytes) : NE (hashFN S hf n inp ps a old) := by
  rw [hashFN]
  exact NE.bind (ne_coreHashN _ _ _ _ _ _ _ _ _) fun _ => NE.bind (ne_coreHashN _ _ _ _ _ _ _ _ _) fun _ =>
    NE.bind (ne_slice _ _ _) fun _ => NE.bind (ne_coreHashN _ _ _ _ _ _ _ _ _) fun _ => NE.ok _

theorem ne_genChainN (n w : Nat) (ps : Bytes) : ∀ (k : Nat) (x : Bytes) (i : Nat) (a : Adrs), NE (genChainN S hf n w ps x i k a)
  | 0, _, _, _ => by rw [genChainN]; exact NE.ok _
  | k + 1, x, i, a => by
    rw [genChainN]
    exact NE.ite (NE.bind (ne_hashFN _ _ _ _ _ _ _) fun _ => ne_genChainN n w ps k _ _ _) (NE.ok _)

theorem ne_pkFromSigLoopN (n : Nat) (p : WotsParams) (ps : Bytes) : ∀ (xs : List (Bytes × Nat)) (i : Nat) (a : Adrs),
    NE (pkFromSigLoopN S hf n p ps i xs a)
  | [], _, _ => by rw [pkFromSigLoopN]; exact NE.ok _
  | (x, d) :: xs, i, a => by
    rw [pkFromSigLoopN]
    exact NE.bind (ne_genChainN _ _ _ _ _ _ _ _ _) fun _ => NE.bind (ne_pkFromSigLoopN n p ps xs _ _) fun _ => NE.ok _

theorem ne_baseWLoop (b : Build) (p : WotsParams) : ∀ (k : Nat) (inp : Bytes) (t bits : Nat), NE (baseWLoop b p inp t bits k)
  | 0, _, _, _ => by rw [baseWLoop.eq_def]; exact NE.ok _
  | k + 1, inp, t, bits => by
    rw [baseWLoop.eq_def]
    dsimp only
    split
    · cases inp
      · exact NE.panic
      · exact NE.bind (NE.ok _) fun _ => NE.bind (ne_u32sub _ _ _) fun _ => NE.bind (ne_shr8 _ _ _) fun _ => NE.bind (ne_baseWLoop b p k _ _ _) fun _ => NE.ok _
    · exact NE.bind (NE.ok _) fun _ => NE.bind (ne_u32sub _ _ _) fun _ => NE.bind (ne_shr8 _ _ _) fun _ => NE.bind (ne_baseWLoop b p k _ _ _) fun _ => NE.ok _

theorem ne_verifyDigits (b : Build) (p : WotsParams) (m : Bytes) : NE (verifyDigits b p m) := by
  rw [verifyDigits]
  exact NE.bind (ne_baseWLoop _ _ _ _ _ _) fun _ => NE.bind (ne_baseWLoop _ _ _ _ _ _) fun _ => NE.ok _

theorem ne_wotsPkFromSigN (b : Build) (n : Nat) (p : WotsParams) (sig : List Bytes) (m ps : Bytes) (a : Adrs) :
    NE (wotsPkFromSigN b S hf n p sig m ps a) := by
  rw [wotsPkFromSigN]
  exact NE.bind (ne_verifyDigits _ _ _) fun _ => ne_pkFromSigLoopN _ _ _ _ _ _ _ _

theorem ne_lTreeRowN (n : Nat) (ps : Bytes) : ∀ (k i : Nat) (buf : List Bytes) (a : Adrs), NE (lTreeRowN S hf n ps k i buf a)
  | 0, _, _, _ => by rw [lTreeRowN]; exact NE.ok _
  | k + 1, i, buf, a => by
    rw [lTreeRowN]
    exact NE.bind (ne_rd _ _) fun _ => NE.bind (ne_rd _ _) fun _ => NE.bind (ne_rd _ _) fun _ =>
      NE.bind (ne_hashHN _ _ _ _ _ _ _) fun _ => NE.bind (ne_wr _ _ _) fun _ => ne_lTreeRowN n ps k _ _ _

theorem half_lt {l : Nat} (h : l > 1) : l >>> 1 < l ∧ (l &&& 1 ≠ 0 → (l >>> 1) + 1 < l) := by
  have h0 : l >>> 1 = l / 2 := Nat.shiftRight_eq_div_pow l 1
  have h1 : l &&& 1 = l % 2 := Nat.and_one_is_mod l
  omega

theorem ne_lTreeLoopN (n : Nat) (ps : Bytes) (l : Nat) : ∀ (h : Nat) (buf : List Bytes) (a : Adrs), NE (lTreeLoopN S hf n ps l h buf a) := by
  induction l using Nat.strongRecOn with
  | _ l ih =>
    intro h buf a
    rw [lTreeLoopN.eq_def]
    split
    · rename_i hl
      refine NE.bind (ne_lTreeRowN _ _ _ _ _ _ _ _) fun x => ?_
      dsimp only
      split
      · rename_i ho
        exact NE.bind (ne_rd _ _) fun _ => NE.bind (ne_wr _ _ _) fun _ => ih _ ((half_lt hl).2 ho) _ _ _
      · exact ih _ (half_lt hl).1 _ _ _
    · exact NE.bind (ne_rd _ _) fun _ => NE.ok _

theorem ne_authPathLoopN (n : Nat) (ps sig : Bytes) : ∀ (m i l o : Nat) (x y : Bytes) (a : Adrs),
    NE (authPathLoopN S hf n ps sig m i l o x y a)
  | 0, _, _, _, _, _, _ => by rw [authPathLoopN]; exact NE.ok _
  | m + 1, i, l, o, x, y, a => by
    rw [authPathLoopN]
    dsimp only
    exact NE.ite
      (NE.bind (ne_hashHN _ _ _ _ _ _ _) fun _ => NE.bind (ne_slice _ _ _) fun _ => ne_authPathLoopN n ps sig m _ _ _ _ _ _)
      (NE.bind (ne_hashHN _ _ _ _ _ _ _) fun _ => NE.bind (ne_slice _ _ _) fun _ => ne_authPathLoopN n ps sig m _ _ _ _ _ _)

theorem ne_validateAuthpathN (b : Build) (n : Nat) (leaf : Bytes) (l : Nat) (sig : Bytes) (o h : Nat) (ps : Bytes) (a : Adrs) :
    NE (validateAuthpathN b S hf n leaf l sig o h ps a) := by
  rw [validateAuthpathN]
  exact NE.bind (ne_slice _ _ _) fun _ => NE.bind (ne_u32sub _ _ _) fun _ => NE.bind (ne_authPathLoopN _ _ _ _ _ _ _ _ _ _ _ _) fun _ =>
    NE.bind (ne_hashHN _ _ _ _ _ _ _) fun _ => NE.ok _

theorem ne_sliceChunksN (sig : Bytes) (n : Nat) : ∀ (k o : Nat), NE (sliceChunksN sig n o k)
  | 0, _ => by rw [sliceChunksN]; exact NE.ok _
  | k + 1, o => by
    rw [sliceChunksN]
    exact NE.bind (ne_slice _ _ _) fun _ => NE.bind (ne_sliceChunksN sig n k _) fun _ => NE.ok _

theorem ne_be32At (l : Bytes) : NE (be32At l) := by
  rw [be32At]
  exact NE.bind (ne_rd _ _) fun _ => NE.bind (ne_rd _ _) fun _ => NE.bind (ne_rd _ _) fun _ => NE.bind (ne_rd _ _) fun _ => NE.ok _

theorem zeroBack_panic (k : Nat) : ∀ (msg : Bytes) (i : Nat), i ≤ msg.length → msg.length < i + k → zeroBack i k msg = panic := by
  induction k with
  | zero => intro msg i h1 h2; omega
  | succ k ih =>
    intro msg i h1 h2
    rw [zeroBack]
    by_cases h : i < msg.length
    · rw [wr, if_pos h, ok_bind, ih _ _ (by rw [List.length_set]; omega) (by rw [List.length_set]; omega)]
    · rw [wr, if_neg h]; rfl

theorem copyBack_panic (sig : Bytes) (off : Nat) (k : Nat) : ∀ (msg : Bytes) (i : Nat), i ≤ msg.length → msg.length < i + k →
    copyBack sig off i k msg = panic := by
  induction k with
  | zero => intro msg i h1 h2; omega
  | succ k ih =>
    intro msg i h1 h2
    rw [copyBack]
    cases hr : rd sig (off + i) with
    | panic => rfl
    | err e => exact absurd hr (ne_rd _ _ e)
    | ok x =>
      rw [ok_bind]
      by_cases h : i < msg.length
      · rw [wr, if_pos h, ok_bind, ih _ _ (by rw [List.length_set]; omega) (by rw [List.length_set]; omega)]
      · rw [wr, if_neg h]; rfl

/-- What follows a step that is no `Err` panics, so everything does. -/
theorem NE.bind_panic {α β : Type} {x : Res α} (hx : NE x) {f : α → Res β} (h : ∀ a, x = Res.ok a → f a = Res.panic) : (x >>= f) = Res.panic := by
  cases x with
  | ok a => exact h a rfl
  | err e => exact absurd rfl (hx e)
  | panic => rfl

theorem xmssVerifySigN_big (b : Build) (n : Nat) (hn : 32 < n) (hn' : n < 2 ^ 32) (p : WotsParams) (hl : p.len < 2 ^ 16)
    (hk : p.keysize = p.len * n) (msg : Bytes) (hm : msg.length < 2 ^ 63) (msglen : Nat) (sig pk : Bytes) (h : Nat) (hh : h ≤ 255) :
    xmssVerifySigN b S hf n p msg msglen sig pk h = panic := by
  have e2 : p.len * 32 ≤ p.len * n := Nat.mul_le_mul_left _ (by omega)
  have e3 : h * 32 ≤ h * n := Nat.mul_le_mul_left _ (by omega)
  have e4 : p.len * n < 2 ^ 48 := by
    calc p.len * n < 2 ^ 16 * 2 ^ 32 := Nat.mul_lt_mul_of_lt_of_lt hl hn'
      _ = 2 ^ 48 := by decide
  have e5 : h * n ≤ 255 * n := Nat.mul_le_mul_right _ hh
  rw [xmssVerifySigN]
  refine NE.bind_panic (ne_slice _ _ _) fun ps _ => NE.bind_panic (ne_be32At _) fun idx _ => NE.bind_panic (ne_slice _ _ _) fun r _ =>
    NE.bind_panic (ne_slice _ _ _) fun root0 _ => NE.bind_panic (ne_toByteN _ _) fun t _ => NE.bind_panic (ne_u64sub _ _ _) fun c1 h1 =>
    NE.bind_panic (ne_hMsgN _ _ _ _ _ _ _ _) fun mh _ => NE.bind_panic (ne_sliceChunksN _ _ _ _) fun ws _ =>
    NE.bind_panic (ne_wotsPkFromSigN _ _ _ _ _ _ _ _ _) fun wpk _ => NE.bind_panic (ne_u64sub _ _ _) fun c2 h2 =>
    NE.bind_panic (ne_lTreeLoopN _ _ _ _ _ _ _ _) fun pkh _ => NE.bind_panic (ne_validateAuthpathN _ _ _ _ _ _ _ _ _ _ _) fun root _ =>
    NE.bind_panic (ne_u64sub _ _ _) fun c3 h3 => ?_
  have hbig : msg.length < 0 + c3 := by
    rw [u64sub.eq_def] at h1 h2 h3
    rw [hk] at h2
    generalize p.len * n = A at *
    generalize p.len * 32 = B at *
    generalize h * n = C at *
    generalize h * 32 = D at *
    cases b
    · split at h1 <;> cases h1
      split at h2 <;> cases h2
      split at h3 <;> cases h3
      omega
    · split at h1 <;> cases h1 <;> split at h2 <;> cases h2 <;> split at h3 <;> cases h3 <;> omega
  split
  · rw [zeroBack_panic _ _ _ (Nat.zero_le _) hbig]; rfl
  · rw [copyBack_panic _ _ _ _ _ (Nat.zero_le _) hbig]; rfl

/-! ## Pairs without a hash function -/

/-- The pairs for which `core_hash` has no branch. -/
def Uns (hf : HashFn) (n : Nat) : Prop := n ≠ 32 ∧ (hf = .sha2_256 ∨ n ≠ 64)

variable {hf}

theorem coreHashN_uns {n : Nat} (hu : Uns hf n) (h1 : 1 ≤ n) (t : Nat) (key : Bytes) (kl : Nat) (inp : Bytes) (il : Nat) (old : Bytes)
    (hs : il + n + kl < 2 ^ 32) (hk : kl ≤ key.length) (hi : il ≤ inp.length) :
    coreHashN S hf n t key kl inp il old = ok (1, old) := by
  rw [coreHashN, if_neg (by omega), toByteN, if_neg (by omega), slice, if_pos (by omega), slice, if_pos (by omega)]
  obtain ⟨h2, h3⟩ := hu
  simp only [ok_bind]
  cases hf
  · exact if_neg h2
  · rcases h3 with h3 | h3
    · cases h3
    · exact if_neg (by omega)
  · rcases h3 with h3 | h3
    · cases h3
    · exact if_neg (by omega)

theorem coreHashN_uns_any {n : Nat} (hu : Uns hf n) (t : Nat) (key : Bytes) (kl : Nat) (inp : Bytes) (il : Nat) (old : Bytes) (r : Nat × Bytes)
    (h : coreHashN S hf n t key kl inp il old = ok r) : r = (1, old) := by
  rw [coreHashN] at h
  obtain ⟨h2, h3⟩ := hu
  by_cases hc : il + n + kl ≥ 2 ^ 32
  · rw [if_pos hc] at h; cases h
  · rw [if_neg hc] at h
    obtain ⟨_, _, h⟩ := bind_eq_ok.mp h
    obtain ⟨_, _, h⟩ := bind_eq_ok.mp h
    obtain ⟨_, _, h⟩ := bind_eq_ok.mp h
    cases hf
    · dsimp only at h; rw [if_neg h2] at h; cases h; rfl
    · rcases h3 with h3 | h3
      · cases h3
      · dsimp only at h; rw [if_neg (by omega)] at h; cases h; rfl
    · rcases h3 with h3 | h3
      · cases h3
      · dsimp only at h; rw [if_neg (by omega)] at h; cases h; rfl

theorem length_adrsBytes (a : Adrs) : (adrsBytes a).length = 32 := by
  simp only [adrsBytes, toByte_rs, List.length_append, toByte_eq_be, length_be]

theorem prfN_uns {n : Nat} (hu : Uns hf n) (h1 : 1 ≤ n) (h2 : n < 2 ^ 28) (a : Adrs) (ps old : Bytes) (hp : n ≤ ps.length) :
    prfN S hf n (adrsBytes a) ps old = ok (1, old) :=
  coreHashN_uns S hu h1 _ _ _ _ _ _ (by omega) hp (by rw [length_adrsBytes])

theorem hashHN_uns {n : Nat} (hu : Uns hf n) (h1 : 1 ≤ n) (h2 : n < 2 ^ 28) (inp ps : Bytes) (a : Adrs) (old : Bytes) (hp : n ≤ ps.length)
    (hi : 2 * n ≤ inp.length) : ∃ a', hashHN S hf n inp ps a old = ok (1, old, a') := by
  refine ⟨setKeyAndMask (setKeyAndMask (setKeyAndMask a 0) 1) 2, ?_⟩
  rw [hashHN]
  simp only [prfN_uns S hu h1 h2 _ ps _ hp, ok_bind]
  rw [slice, if_pos (by omega), ok_bind, coreHashN_uns S hu h1 _ _ _ _ _ _ (by omega)
    (by rw [List.length_replicate])
    (by rw [xorBytes, List.length_zipWith, List.length_append, List.length_replicate, List.length_take, List.drop_zero]; omega)]
  rfl

theorem hashFN_uns {n : Nat} (hu : Uns hf n) (h1 : 1 ≤ n) (h2 : n < 2 ^ 28) (inp ps : Bytes) (a : Adrs) (old : Bytes) (hp : n ≤ ps.length)
    (hi : n ≤ inp.length) : ∃ a', hashFN S hf n inp ps a old = ok (1, old, a') := by
  refine ⟨setKeyAndMask (setKeyAndMask a 0) 1, ?_⟩
  rw [hashFN]
  simp only [prfN_uns S hu h1 h2 _ ps _ hp, ok_bind]
  rw [slice, if_pos (by omega), ok_bind, coreHashN_uns S hu h1 _ _ _ _ _ _ (by omega)
    (by rw [List.length_replicate])
    (by rw [xorBytes, List.length_zipWith, List.length_replicate, List.length_take, List.drop_zero]; omega)]
  rfl

theorem genChainN_uns {n : Nat} (hu : Uns hf n) (h1 : 1 ≤ n) (h2 : n < 2 ^ 28) (w : Nat) (ps : Bytes) (hp : n ≤ ps.length) (x : Bytes)
    (hx : n ≤ x.length) : ∀ (k i : Nat) (a : Adrs), ∃ a', genChainN S hf n w ps x i k a = ok (x, a')
  | 0, _, a => ⟨a, rfl⟩
  | k + 1, i, a => by
    rw [genChainN]
    split
    · obtain ⟨a1, e1⟩ := hashFN_uns S hu h1 h2 x ps (setHash a i) x hp hx
      obtain ⟨a2, e2⟩ := genChainN_uns hu h1 h2 w ps hp x hx k (i + 1) a1
      exact ⟨a2, by dsimp only; rw [e1, ok_bind]; exact e2⟩
    · exact ⟨a, rfl⟩

theorem pkFromSigLoopN_uns {n : Nat} (hu : Uns hf n) (h1 : 1 ≤ n) (h2 : n < 2 ^ 28) (p : WotsParams) (ps : Bytes) (hp : n ≤ ps.length) :
    ∀ (xs : List (Bytes × Nat)) (_ : ∀ x ∈ xs, x.1.length = n) (i : Nat) (a : Adrs),
      ∃ a', pkFromSigLoopN S hf n p ps i xs a = ok (xs.map Prod.fst, a')
  | [], _, _, a => ⟨a, rfl⟩
  | (x, d) :: xs, hx, i, a => by
    obtain ⟨a1, e1⟩ := genChainN_uns S hu h1 h2 p.w ps hp x (Nat.le_of_eq (hx (x, d) (List.mem_cons_self ..)).symm) (p.w - 1 - d) d (setChain a i)
    obtain ⟨a2, e2⟩ := pkFromSigLoopN_uns hu h1 h2 p ps hp xs (fun y hy => hx y (List.mem_cons_of_mem _ hy)) (i + 1) a1
    exact ⟨a2, by rw [pkFromSigLoopN]; dsimp only; rw [e1, ok_bind]; dsimp only; rw [e2]; rfl⟩

theorem rd_lt {α : Type} {l : List α} {i : Nat} (h : i < l.length) : rd l i = ok l[i] := by
  rw [rd, List.getElem?_eq_getElem h]

theorem lTreeRowN_uns {n : Nat} (hu : Uns hf n) (h1 : 1 ≤ n) (h2 : n < 2 ^ 28) (ps : Bytes) (hp : n ≤ ps.length) (buf : List Bytes)
    (hb : ∀ x ∈ buf, x.length = n) : ∀ (k i : Nat) (a : Adrs), 2 * (i + k) ≤ buf.length →
      ∃ a', lTreeRowN S hf n ps k i buf a = ok (buf, a')
  | 0, _, a, _ => ⟨a, rfl⟩
  | k + 1, i, a, hl => by
    have hi : i < buf.length := by omega
    have hl' : 2 * i < buf.length := by omega
    have hr' : 2 * i + 1 < buf.length := by omega
    obtain ⟨a1, e1⟩ := hashHN_uns S hu h1 h2 (buf[2 * i] ++ buf[2 * i + 1]) ps (setTreeIndex a i) buf[i] hp
      (by rw [List.length_append, hb _ (List.getElem_mem hl'), hb _ (List.getElem_mem hr')]; omega)
    obtain ⟨a2, e2⟩ := lTreeRowN_uns hu h1 h2 ps hp buf hb k (i + 1) a1 (by omega)
    refine ⟨a2, ?_⟩
    rw [lTreeRowN]
    dsimp only
    rw [rd_lt hl', ok_bind, rd_lt hr', ok_bind, rd_lt hi, ok_bind, e1, ok_bind]
    dsimp only
    rw [wr, if_pos hi, List.set_getElem_self, ok_bind, e2]

theorem lTreeLoopN_uns {n : Nat} (hu : Uns hf n) (h1 : 1 ≤ n) (h2 : n < 2 ^ 28) (ps : Bytes) (hp : n ≤ ps.length) (l : Nat) :
    ∀ (h : Nat) (buf : List Bytes) (a : Adrs), (∀ x ∈ buf, x.length = n) → 1 ≤ l → l ≤ buf.length →
      ∃ x a', lTreeLoopN S hf n ps l h buf a = ok (x, a') ∧ x.length = n := by
  induction l using Nat.strongRecOn with
  | _ l ih =>
    intro h buf a hb hl1 hl
    rw [lTreeLoopN.eq_def]
    split
    · rename_i hl2
      have hh := half_lt hl2
      have h0 : l >>> 1 = l / 2 := Nat.shiftRight_eq_div_pow l 1
      obtain ⟨a1, e1⟩ := lTreeRowN_uns S hu h1 h2 ps hp buf hb (l >>> 1) 0 a (by omega)
      rw [e1, ok_bind]
      dsimp only
      split
      · rename_i ho
        have hx : l - 1 < buf.length := by omega
        rw [rd_lt hx, ok_bind, wr, if_pos (by omega), ok_bind]
        refine ih _ (hh.2 ho) _ _ _ ?_ (by omega) (by rw [List.length_set]; omega)
        intro y hy
        rcases List.mem_or_eq_of_mem_set hy with hy | rfl
        · exact hb y hy
        · exact hb _ (List.getElem_mem hx)
      · exact ih _ hh.1 _ _ _ hb (by omega) (by omega)
    · have h0 : 0 < buf.length := by omega
      rw [rd_lt h0, ok_bind]
      exact ⟨_, _, rfl, hb _ (List.getElem_mem h0)⟩

theorem slice_in {l : Bytes} {o n : Nat} (h : o + n ≤ l.length) : slice l o n = ok ((l.drop o).take n) ∧ ((l.drop o).take n).length = n :=
  ⟨by rw [slice, if_pos h], by rw [List.length_take, List.length_drop]; omega⟩

theorem authPathLoopN_uns {n : Nat} (hu : Uns hf n) (h1 : 1 ≤ n) (h2 : n < 2 ^ 28) (ps sig : Bytes) (hp : n ≤ ps.length) :
    ∀ (m i l o : Nat) (x y : Bytes) (a : Adrs), x.length = n → y.length = n → o + m * n ≤ sig.length →
      ∃ l' x' y' a', authPathLoopN S hf n ps sig m i l o x y a = ok (l', x', y', a') ∧ x'.length = n ∧ y'.length = n
  | 0, _, l, _, x, y, a, hx, hy, _ => ⟨l, x, y, a, rfl, hx, hy⟩
  | m + 1, i, l, o, x, y, a, hx, hy, ho => by
    rw [Nat.add_mul, Nat.one_mul] at ho
    obtain ⟨s1, s2⟩ := slice_in (l := sig) (o := o) (n := n) (by omega)
    have hxy : 2 * n ≤ (x ++ y).length := by rw [List.length_append]; omega
    rw [authPathLoopN]
    dsimp only
    split
    · obtain ⟨a1, e1⟩ := hashHN_uns S hu h1 h2 (x ++ y) ps (setTreeIndex (setTreeHeight a i) (l >>> 1)) y hp hxy
      rw [e1, ok_bind, s1, ok_bind]
      exact authPathLoopN_uns hu h1 h2 ps sig hp m _ _ _ _ _ _ s2 hy (by omega)
    · obtain ⟨a1, e1⟩ := hashHN_uns S hu h1 h2 (x ++ y) ps (setTreeIndex (setTreeHeight a i) (l >>> 1)) x hp hxy
      rw [e1, ok_bind, s1, ok_bind]
      exact authPathLoopN_uns hu h1 h2 ps sig hp m _ _ _ _ _ _ hx s2 (by omega)

theorem validateAuthpathN_uns {n : Nat} (hu : Uns hf n) (h1 : 1 ≤ n) (h2 : n < 2 ^ 28) (b : Build) (leaf : Bytes) (hle : leaf.length = n)
    (l : Nat) (sig : Bytes) (o h : Nat) (hh : 1 ≤ h) (ho : o + h * n ≤ sig.length) (ps : Bytes) (hp : n ≤ ps.length) (a : Adrs) :
    validateAuthpathN b S hf n leaf l sig o h ps a = ok (List.replicate n 0) := by
  obtain ⟨m, rfl⟩ : ∃ m, h = m + 1 := ⟨h - 1, by omega⟩
  rw [Nat.add_mul, Nat.one_mul] at ho
  obtain ⟨s1, s2⟩ := slice_in (l := sig) (o := o) (n := n) (by omega)
  rw [validateAuthpathN, s1, ok_bind]
  have hu32 : u32sub b (m + 1) 1 = ok m := by rw [u32sub.eq_def, if_pos (by omega), Nat.add_sub_cancel]
  have key : ∀ x y : Bytes, x.length = n → y.length = n → (do
      let m' ← u32sub b (m + 1) 1
      let (leafidx, bl, br, addr) ← authPathLoopN S hf n ps sig m' 0 l (o + n) x y a
      let addr := setTreeHeight addr m'
      let leafidx := leafidx >>> 1
      let addr := setTreeIndex addr leafidx
      let (_, root, _) ← hashHN S hf n (bl ++ br) ps addr (List.replicate n 0)
      ok root) = ok (List.replicate n (0 : UInt8)) := by
    intro x y hx hy
    obtain ⟨l', x', y', a', e, hx', hy'⟩ := authPathLoopN_uns S hu h1 h2 ps sig hp m 0 l (o + n) x y a hx hy (by omega)
    rw [hu32, ok_bind, e, ok_bind]
    dsimp only
    obtain ⟨a1, e1⟩ := hashHN_uns S hu h1 h2 (x' ++ y') ps (setTreeIndex (setTreeHeight a' m) (l' >>> 1)) (List.replicate n 0) hp
      (by rw [List.length_append]; omega)
    rw [e1]; rfl
  dsimp only
  by_cases hc : l &&& 1 ≠ 0
  · rw [if_pos hc]; exact key _ _ s2 hle
  · rw [if_neg hc]; exact key _ _ hle s2

theorem sliceChunksN_ok (sig : Bytes) (n : Nat) : ∀ (k o : Nat), o + k * n ≤ sig.length →
    ∃ cs, sliceChunksN sig n o k = ok cs ∧ cs.length = k ∧ ∀ c ∈ cs, c.length = n
  | 0, _, _ => ⟨[], rfl, rfl, fun _ h => by cases h⟩
  | k + 1, o, h => by
    rw [Nat.add_mul, Nat.one_mul] at h
    obtain ⟨s1, s2⟩ := slice_in (l := sig) (o := o) (n := n) (by omega)
    obtain ⟨cs, e, hl, hc⟩ := sliceChunksN_ok sig n k (o + n) (by omega)
    refine ⟨_ :: cs, by rw [sliceChunksN, s1, ok_bind, e]; rfl, by rw [List.length_cons, hl], ?_⟩
    intro c hm
    rcases List.mem_cons.mp hm with rfl | hm
    · exact s2
    · exact hc c hm

theorem be32At_ok (l : Bytes) (h : 4 ≤ l.length) : ∃ i, be32At l = ok i := by
  rw [be32At, rd_lt (show 0 < l.length by omega), ok_bind, rd_lt (show 1 < l.length by omega), ok_bind, rd_lt (show 2 < l.length by omega),
    ok_bind, rd_lt (show 3 < l.length by omega), ok_bind]
  exact ⟨_, rfl⟩

theorem zeroBack_ok (k : Nat) : ∀ (done rest : Bytes), k ≤ rest.length →
    zeroBack done.length k (done ++ rest) = ok (done ++ (List.replicate k 0 ++ rest.drop k)) := by
  induction k with
  | zero => intro d r _; rw [zeroBack]; rfl
  | succ k ih =>
    intro d r h
    cases r with
    | nil => simp at h
    | cons x r =>
      rw [zeroBack, wr, if_pos (by rw [List.length_append, List.length_cons]; omega), ok_bind, List.set_append, if_neg (by omega), Nat.sub_self,
        List.set_cons_zero]
      have := ih (d ++ [0]) r (by rw [List.length_cons] at h; omega)
      rw [List.length_append, List.length_singleton, List.append_assoc, List.singleton_append, List.append_assoc] at this
      rw [this, List.replicate_succ]; rfl

theorem copyBack_ok (sig : Bytes) (off : Nat) (k : Nat) : ∀ (done rest : Bytes), k ≤ rest.length → off + done.length + k ≤ sig.length →
    copyBack sig off done.length k (done ++ rest) = ok (done ++ ((sig.drop (off + done.length)).take k ++ rest.drop k)) := by
  induction k with
  | zero => intro d r _ _; rw [copyBack]; rfl
  | succ k ih =>
    intro d r h hs
    cases r with
    | nil => simp at h
    | cons x r =>
      have hl : off + d.length < sig.length := by omega
      rw [copyBack, rd_lt hl, ok_bind, wr, if_pos (by rw [List.length_append, List.length_cons]; omega), ok_bind, List.set_append, if_neg (by omega),
        Nat.sub_self, List.set_cons_zero]
      have := ih (d ++ [sig[off + d.length]]) r (by rw [List.length_cons] at h; omega)
        (by rw [List.length_append, List.length_singleton]; omega)
      rw [List.length_append, List.length_singleton, List.append_assoc, List.singleton_append, List.append_assoc] at this
      rw [this, List.drop_eq_getElem_cons hl, List.take_succ_cons]; rfl

theorem digits_zero {n : Nat} {p : WotsParams} {k q : Nat} (hg : GoodN n p k q) (b : Build) (m : Bytes) (hm : m.length = n) :
    ∃ ds, verifyDigits b p m = ok ds ∧ ds.length = p.len := by
  have hk : 1 ≤ p.logW := by
    rw [hg.logW]
    rcases Nat.eq_zero_or_pos k with h | h
    · have := hg.kq; rw [h] at this; simp at this
    · exact h
  exact ⟨_, verifyDigits_sim b p hk m _ (by rw [verifyDigits_eq_signDigits, signDigits_N hg m hm]), length_digitStringN hg m hm⟩

theorem wotsPkFromSigN_uns {n : Nat} (hu : Uns hf n) (h1 : 1 ≤ n) (h2 : n < 2 ^ 28) {p : WotsParams} {k q : Nat} (hg : GoodN n p k q) (b : Build)
    (sig : List Bytes) (hl : sig.length = p.len) (hs : ∀ x ∈ sig, x.length = n) (m ps : Bytes) (hm : m.length = n) (hp : n ≤ ps.length) (a : Adrs) :
    ∃ a', wotsPkFromSigN b S hf n p sig m ps a = ok (sig, a') := by
  obtain ⟨ds, e, hd⟩ := digits_zero hg b m hm
  obtain ⟨a1, e1⟩ := pkFromSigLoopN_uns S hu h1 h2 p ps hp (sig.zip ds) (fun x hx => hs _ (List.of_mem_zip hx).1) 0 a
  refine ⟨a1, ?_⟩
  rw [wotsPkFromSigN, e, ok_bind, e1, List.map_fst_zip (by omega)]

theorem xmssVerifySigN_uns {n : Nat} (hu : Uns hf n) (h1 : 1 ≤ n) (hn : n < 32) {p : WotsParams} {k q : Nat} (hg : GoodN n p k q)
    (hk : p.keysize = p.len * n) (b : Build) (msg : Bytes) (msglen : Nat) (hm : msglen ≤ msg.length) (hm32 : msglen < 2 ^ 31) (sig pk : Bytes) (h : Nat)
    (hh : 1 ≤ h) (hpk : 2 * n ≤ pk.length) (hsig : 4 + n + p.len * n + h * n + (32 - n) * (1 + p.len + h) ≤ sig.length)
    (hb : (32 - n) * (1 + p.len + h) ≤ msg.length) :
    xmssVerifySigN b S hf n p msg msglen sig pk h =
      if pk.take n = List.replicate n 0 then
        ok (0, (sig.drop (4 + n + p.len * n + h * n)).take ((32 - n) * (1 + p.len + h)) ++ msg.drop ((32 - n) * (1 + p.len + h)))
      else ok (-1, List.replicate ((32 - n) * (1 + p.len + h)) 0 ++ msg.drop ((32 - n) * (1 + p.len + h))) := by
  have h2 : n < 2 ^ 28 := by omega
  have e1 : (32 - n) * (1 + p.len + h) = (32 - n) + (p.len * 32 - p.len * n) + (h * 32 - h * n) := by
    rw [Nat.mul_add, Nat.mul_add, Nat.mul_one, Nat.mul_comm (32 - n) p.len, Nat.mul_comm (32 - n) h, Nat.mul_sub, Nat.mul_sub]
  have e2 : p.len * n ≤ p.len * 32 := Nat.mul_le_mul_left _ (by omega)
  have e3 : h * n ≤ h * 32 := Nat.mul_le_mul_left _ (by omega)
  generalize (32 - n) * (1 + p.len + h) = N at *
  obtain ⟨s1, l1⟩ := slice_in (l := pk) (o := n) (n := n) (by omega)
  obtain ⟨idx, ei⟩ := be32At_ok sig (by omega)
  obtain ⟨s2, l2⟩ := slice_in (l := sig) (o := 4) (n := n) (by omega)
  obtain ⟨s3, l3⟩ := slice_in (l := pk) (o := 0) (n := n) (by omega)
  have hkey : ∀ r : Bytes, r.length = n → (r ++ (pk.drop 0).take n ++ toByte idx n).length = 3 * n := by
    intro r hr
    rw [List.length_append, List.length_append, hr, l3, toByte_rs, toByte_eq_be, length_be]; omega
  have u1 : u64sub b (4 + 32 + p.len * 32 + h * 32) (n + 4) = ok (32 - n + p.len * 32 + h * 32) := by
    rw [u64sub.eq_def, if_pos (by omega)]; congr 1; omega
  have u2 : u64sub b (32 - n + p.len * 32 + h * 32) p.keysize = ok (32 - n + (p.len * 32 - p.len * n) + h * 32) := by
    rw [hk, u64sub.eq_def, if_pos (by omega)]; congr 1; omega
  have u3 : u64sub b (32 - n + (p.len * 32 - p.len * n) + h * 32) (h * n) = ok N := by
    rw [u64sub.eq_def, if_pos (by omega)]; congr 1; omega
  obtain ⟨cs, ec, lc, hc⟩ := sliceChunksN_ok sig n p.len (4 + n) (by omega)
  have hplen : 1 ≤ p.len := by have := hg.len; have := hg.len2; omega
  rw [xmssVerifySigN]
  dsimp only
  rw [s1, ok_bind, ei, ok_bind, s2, ok_bind, s3, ok_bind, toByteN, if_neg (by omega), ok_bind, u1, ok_bind, hMsgN, if_neg (by omega), if_neg (by omega),
    coreHashN_uns S hu h1 _ _ _ _ _ _ (by omega) (Nat.le_of_eq (hkey _ l2).symm) hm, ok_bind]
  dsimp only
  obtain ⟨a1, ew⟩ := wotsPkFromSigN_uns S hu h1 h2 hg b cs lc hc (List.replicate n 0) ((pk.drop n).take n) List.length_replicate
    (Nat.le_of_eq l1.symm) (setOTS (setType {} 0) idx)
  rw [ec, ok_bind, ew, ok_bind]
  dsimp only
  rw [u2, ok_bind]
  obtain ⟨leaf, a2, el, hleaf⟩ := lTreeLoopN_uns S hu h1 h2 ((pk.drop n).take n) (Nat.le_of_eq l1.symm) p.len 0 cs
    (setTreeHeight (setLtree (setType {} 1) idx) 0) hc hplen (by omega)
  rw [lTreeN, el, ok_bind]
  dsimp only
  rw [validateAuthpathN_uns S hu h1 h2 b leaf hleaf idx sig (4 + n + p.keysize) h hh (by rw [hk]; omega) _ (Nat.le_of_eq l1.symm), ok_bind, u3,
    ok_bind, List.drop_zero]
  by_cases hz : pk.take n = List.replicate n 0
  · have := copyBack_ok sig (4 + n + p.keysize + h * n) N [] msg hb (by rw [hk]; exact hsig)
    rw [List.nil_append, List.nil_append, List.length_nil, hk] at this
    rw [if_pos hz, if_neg (by rw [hz]; exact fun h => h rfl), hk, this]; rfl
  · have := zeroBack_ok N [] msg hb
    rw [List.nil_append, List.nil_append, List.length_nil] at this
    rw [if_neg hz, if_pos (fun h => hz h.symm), this]; rfl

theorem wotsParamsN_eq {n w : Nat} (hw : w = 2 ∨ w = 4 ∨ w = 16 ∨ w = 256) :
    wotsParamsN n w = ⟨Spec.len1N n w, Spec.len2N n w, Spec.len1N n w + Spec.len2N n w, w, Nat.log2 w,
      (Spec.len1N n w + Spec.len2N n w) * n⟩ := by
  have h : (8 * n + Nat.log2 w - 1) / Nat.log2 w = 8 * n / Nat.log2 w := by
    rcases hw with rfl | rfl | rfl | rfl
    · rw [show Nat.log2 2 = 1 by decide +kernel]; omega
    · rw [show Nat.log2 4 = 2 by decide +kernel]; omega
    · rw [show Nat.log2 16 = 4 by decide +kernel]; omega
    · rw [show Nat.log2 256 = 8 by decide +kernel]; omega
  rw [wotsParamsN, h]
  rfl

theorem len_lt {n w : Nat} (hn : n ≤ 4096) (hw : w = 2 ∨ w = 4 ∨ w = 16 ∨ w = 256) :
    (wotsParamsN n w).len < 2 ^ 16 ∧ (wotsParamsN n w).keysize = (wotsParamsN n w).len * n := by
  rw [wotsParamsN_eq hw]
  refine ⟨?_, rfl⟩
  show Spec.len1N n w + Spec.len2N n w < 2 ^ 16
  have h1 : Spec.len1N n w ≤ 8 * n := Nat.div_le_self _ _
  have h2 : Spec.len2N n w ≤ 30 := by
    rw [Spec.len2N]
    have h3 : Nat.log2 (Spec.len1N n w * (w - 1)) < 24 := by
      by_cases h0 : Spec.len1N n w * (w - 1) = 0
      · rw [h0]; decide
      · rw [Nat.log2_lt h0]
        calc Spec.len1N n w * (w - 1) ≤ 32768 * 255 := Nat.mul_le_mul (by omega) (by omega)
          _ < 2 ^ 24 := by decide
    have := Nat.div_le_self (Nat.log2 (Spec.len1N n w * (w - 1))) (Nat.log2 w)
    omega
  omega

/-! ## `n = 32` -/

variable (hf)

theorem coreHashN_32 (t : Nat) (key : Bytes) (kl : Nat) (inp : Bytes) (il : Nat) (old : Bytes) :
    coreHashN S hf 32 t key kl inp il old = (coreHash S hf t key kl inp il >>= fun d => ok (0, d)) := by
  rw [coreHashN, coreHash]
  by_cases hc : il + 32 + kl ≥ 2 ^ 32
  · rw [if_pos hc, if_pos hc]; rfl
  · rw [if_neg hc, if_neg hc, toByteN, if_neg (by decide), ok_bind]
    cases slice key 0 kl with
    | err e => rfl
    | panic => rfl
    | ok k =>
      rw [ok_bind, ok_bind]
      cases slice inp 0 il with
      | err e => rfl
      | panic => rfl
      | ok m => cases hf <;> rfl

theorem prfN_32 (a : Adrs) (ps old : Bytes) (hp : 32 ≤ ps.length) :
    prfN S hf 32 (adrsBytes a) ps old = ok (0, Qrl.prf S hf a.toBytes (ps.take 32)) := by
  rw [prfN, coreHashN_32]
  have := prf_rs S hf (adrsBytes a) ps (length_adrsBytes a) hp
  rw [prf] at this
  rw [this, adrsBytes_eq]; rfl

theorem hashHN_32 (inp ps : Bytes) (a : Adrs) (old : Bytes) (hi : inp.length = 64) (hp : 32 ≤ ps.length) :
    ∃ x a', hashH S hf inp ps a = ok (x, a') ∧ hashHN S hf 32 inp ps a old = ok (0, x, a') ∧ x.length = 32 := by
  refine ⟨(Qrl.hashH S hf inp (ps.take 32) a).1, (Qrl.hashH S hf inp (ps.take 32) a).2, hashH_rs S hf inp ps a hp, ?_, length_coreHash ..⟩
  have h := hashH_rs S hf inp ps a hp
  rw [hashH] at h
  have hx : ∀ a b : Bytes, a.length = 32 → b.length = 32 → (xorBytes inp (a ++ b)).length = 64 := by
    intro a b ha hb
    rw [xorBytes, List.length_zipWith, List.length_append, ha, hb, hi]; rfl
  simp only [adrsBytes_eq, prf_rs S hf _ ps (length_adrs _) hp, ok_bind, hx _ _ (length_prf ..) (length_prf ..)] at h
  rw [hashHN]
  simp only [prfN_32 S hf _ ps _ hp, ok_bind]
  rw [slice, if_pos (by omega), ok_bind, List.drop_zero, List.take_of_length_le (l := inp) (by omega), coreHashN_32]
  obtain ⟨o, e1, e2⟩ := bind_eq_ok.mp h
  have e1' := congrArg (fun x : Res Bytes => x >>= fun d => ok (0, d)) e1
  injection e2 with e2
  rw [← e2]
  exact congrArg (fun x : Res (Nat × Bytes) => x >>= fun r => ok (r.1, r.2, _)) e1'

theorem hashFN_32 (inp ps : Bytes) (a : Adrs) (old : Bytes) (hi : inp.length = 32) (hp : 32 ≤ ps.length) :
    ∃ x a', hashF S hf inp ps a = ok (x, a') ∧ hashFN S hf 32 inp ps a old = ok (0, x, a') ∧ x.length = 32 := by
  refine ⟨(Qrl.hashF S hf inp (ps.take 32) a).1, (Qrl.hashF S hf inp (ps.take 32) a).2, hashF_rs S hf inp ps a hp, ?_, length_coreHash ..⟩
  have h := hashF_rs S hf inp ps a hp
  rw [hashF] at h
  have hx : ∀ a : Bytes, a.length = 32 → (xorBytes inp a).length = 32 := by
    intro a ha
    rw [xorBytes, List.length_zipWith, ha, hi]; rfl
  simp only [adrsBytes_eq, prf_rs S hf _ ps (length_adrs _) hp, ok_bind, hx _ (length_prf ..)] at h
  rw [hashFN]
  simp only [prfN_32 S hf _ ps _ hp, ok_bind]
  rw [slice, if_pos (by omega), ok_bind, List.drop_zero, List.take_of_length_le (l := inp) (by omega), coreHashN_32]
  obtain ⟨o, e1, e2⟩ := bind_eq_ok.mp h
  have e1' := congrArg (fun x : Res Bytes => x >>= fun d => ok (0, d)) e1
  injection e2 with e2
  rw [← e2]
  exact congrArg (fun x : Res (Nat × Bytes) => x >>= fun r => ok (r.1, r.2, _)) e1'

theorem genChainN_32 (w : Nat) (ps : Bytes) (hp : 32 ≤ ps.length) : ∀ (k : Nat) (x : Bytes) (i : Nat) (a : Adrs), x.length = 32 →
    ∃ y a', genChain S hf w ps x i k a = ok (y, a') ∧ genChainN S hf 32 w ps x i k a = ok (y, a') ∧ y.length = 32
  | 0, x, _, a, hx => ⟨x, a, rfl, rfl, hx⟩
  | k + 1, x, i, a, hx => by
    rw [genChain, genChainN]
    by_cases h : i < w
    · rw [if_pos h, if_pos h]
      obtain ⟨y, a1, e1, e2, hy⟩ := hashFN_32 S hf x ps (setHash a i) x hx hp
      dsimp only
      rw [e1, e2, ok_bind, ok_bind]
      exact genChainN_32 w ps hp k y (i + 1) a1 hy
    · rw [if_neg h, if_neg h]; exact ⟨x, a, rfl, rfl, hx⟩

theorem pkFromSigLoopN_32 (p : WotsParams) (ps : Bytes) (hp : 32 ≤ ps.length) : ∀ (xs : List (Bytes × Nat)) (i : Nat) (a : Adrs),
    (∀ x ∈ xs, x.1.length = 32) →
    ∃ ys a', pkFromSigLoop S hf p ps i xs a = ok (ys, a') ∧ pkFromSigLoopN S hf 32 p ps i xs a = ok (ys, a') ∧ ∀ y ∈ ys, y.length = 32
  | [], _, a, _ => ⟨[], a, rfl, rfl, fun _ h => by cases h⟩
  | (x, d) :: xs, i, a, hx => by
    obtain ⟨y, a1, e1, e2, hy⟩ := genChainN_32 S hf p.w ps hp (p.w - 1 - d) x d (setChain a i) (hx (x, d) (List.mem_cons_self ..))
    obtain ⟨ys, a2, f1, f2, hys⟩ := pkFromSigLoopN_32 p ps hp xs (i + 1) a1 (fun z hz => hx z (List.mem_cons_of_mem _ hz))
    refine ⟨y :: ys, a2, ?_, ?_, ?_⟩
    · rw [pkFromSigLoop]; dsimp only; rw [e1, ok_bind]; dsimp only; rw [f1]; rfl
    · rw [pkFromSigLoopN]; dsimp only; rw [e2, ok_bind]; dsimp only; rw [f2]; rfl
    · intro z hz
      rcases List.mem_cons.mp hz with rfl | hz
      · exact hy
      · exact hys z hz

theorem lTreeRowN_32 (ps : Bytes) (hp : 32 ≤ ps.length) : ∀ (k i : Nat) (buf : List Bytes) (a : Adrs), (∀ x ∈ buf, x.length = 32) →
    lTreeRowN S hf 32 ps k i buf a = lTreeRow S hf ps k i buf a ∧ ∀ r, lTreeRow S hf ps k i buf a = ok r → ∀ x ∈ r.1, x.length = 32
  | 0, _, buf, a, hb => ⟨rfl, fun r h => by cases h; exact hb⟩
  | k + 1, i, buf, a, hb => by
    rw [lTreeRowN, lTreeRow]
    dsimp only
    by_cases h1 : 2 * i < buf.length
    · rw [rd_lt h1, ok_bind, ok_bind]
      by_cases h2 : 2 * i + 1 < buf.length
      · have hi : i < buf.length := by omega
        rw [rd_lt h2, ok_bind, ok_bind, rd_lt hi, ok_bind]
        obtain ⟨x, a1, e1, e2, hx⟩ := hashHN_32 S hf (buf[2 * i] ++ buf[2 * i + 1]) ps (setTreeIndex a i) buf[i]
          (by rw [List.length_append, hb _ (List.getElem_mem h1), hb _ (List.getElem_mem h2)]) hp
        rw [e1, e2, ok_bind, ok_bind]
        dsimp only
        rw [wr, if_pos hi, ok_bind, ok_bind]
        refine lTreeRowN_32 ps hp k (i + 1) _ a1 ?_
        intro y hy
        rcases List.mem_or_eq_of_mem_set hy with hy | rfl
        · exact hb y hy
        · exact hx
      · have : rd buf (2 * i + 1) = panic := by rw [rd, List.getElem?_eq_none (by omega)]
        rw [this]; exact ⟨rfl, fun r h => by cases h⟩
    · have : rd buf (2 * i) = panic := by rw [rd, List.getElem?_eq_none (by omega)]
      rw [this]; exact ⟨rfl, fun r h => by cases h⟩

theorem lTreeLoopN_32 (ps : Bytes) (hp : 32 ≤ ps.length) (l : Nat) : ∀ (h : Nat) (buf : List Bytes) (a : Adrs), (∀ x ∈ buf, x.length = 32) →
    lTreeLoopN S hf 32 ps l h buf a = lTreeLoop S hf ps l h buf a ∧ ∀ r, lTreeLoop S hf ps l h buf a = ok r → r.1.length = 32 := by
  induction l using Nat.strongRecOn with
  | _ l ih =>
    intro h buf a hb
    rw [lTreeLoopN.eq_def, lTreeLoop.eq_def]
    have hrd : ∀ (bf : List Bytes) (i : Nat) (x : Bytes), (∀ y ∈ bf, y.length = 32) → rd bf i = ok x → x.length = 32 := by
      intro bf i x hbf hx
      rw [rd.eq_def] at hx
      split at hx
      · rename_i y hy; cases hx; exact hbf _ (List.mem_of_getElem? hy)
      · cases hx
    by_cases hl : l > 1
    · rw [dif_pos hl, dif_pos hl]
      obtain ⟨e, hr⟩ := lTreeRowN_32 S hf ps hp (l >>> 1) 0 buf a hb
      rw [e]
      cases hx : lTreeRow S hf ps (l >>> 1) 0 buf a with
      | err e => exact ⟨rfl, fun r h => by cases h⟩
      | panic => exact ⟨rfl, fun r h => by cases h⟩
      | ok r =>
        have hb' := hr r hx
        rw [ok_bind, ok_bind]
        dsimp only
        by_cases ho : l &&& 1 ≠ 0
        · rw [if_pos ho, if_pos ho]
          cases hy : rd r.1 (l - 1) with
          | err e => exact ⟨rfl, fun r h => by cases h⟩
          | panic => exact ⟨rfl, fun r h => by cases h⟩
          | ok y =>
            rw [ok_bind, ok_bind]
            by_cases hw : l >>> 1 < r.1.length
            · rw [wr, if_pos hw, ok_bind, ok_bind]
              refine ih _ ((half_lt hl).2 ho) _ _ _ ?_
              intro z hz
              rcases List.mem_or_eq_of_mem_set hz with hz | rfl
              · exact hb' z hz
              · exact hrd _ _ _ hb' hy
            · rw [wr, if_neg hw]; exact ⟨rfl, fun r h => by cases h⟩
        · rw [if_neg ho, if_neg ho]
          exact ih _ (half_lt hl).1 _ _ _ hb'
    · rw [dif_neg hl, dif_neg hl]
      refine ⟨rfl, fun r h => ?_⟩
      obtain ⟨x, e1, e2⟩ := bind_eq_ok.mp h
      cases e2
      exact hrd _ _ _ hb e1

theorem authPathLoopN_32 (ps sig : Bytes) (hp : 32 ≤ ps.length) : ∀ (m i l o : Nat) (x y : Bytes) (a : Adrs), x.length = 32 → y.length = 32 →
    authPathLoopN S hf 32 ps sig m i l o x y a = authPathLoop S hf ps sig m i l o x y a ∧
      ∀ r, authPathLoop S hf ps sig m i l o x y a = ok r → r.2.1.length = 32 ∧ r.2.2.1.length = 32
  | 0, _, _, _, _, _, _, hx, hy => ⟨rfl, fun r h => by cases h; exact ⟨hx, hy⟩⟩
  | m + 1, i, l, o, x, y, a, hx, hy => by
    have hxy : (x ++ y).length = 64 := by rw [List.length_append, hx, hy]
    rw [authPathLoopN, authPathLoop]
    dsimp only
    obtain ⟨z, a1, e1, e2, hz⟩ := hashHN_32 S hf (x ++ y) ps (setTreeIndex (setTreeHeight a i) (l >>> 1)) y hxy hp
    obtain ⟨z', a1', e1', e2', -⟩ := hashHN_32 S hf (x ++ y) ps (setTreeIndex (setTreeHeight a i) (l >>> 1)) x hxy hp
    rw [e1] at e1'
    cases e1'
    rw [e1, e2, e2', ok_bind, ok_bind, ok_bind]
    dsimp only
    by_cases hs : o + 32 ≤ sig.length
    · obtain ⟨s1, s2⟩ := slice_in hs
      rw [s1, ok_bind, ok_bind, ok_bind]
      by_cases hc : (l >>> 1) &&& 1 ≠ 0
      · rw [if_pos hc, if_pos hc]; exact authPathLoopN_32 ps sig hp m _ _ _ _ _ _ s2 hz
      · rw [if_neg hc, if_neg hc]; exact authPathLoopN_32 ps sig hp m _ _ _ _ _ _ hz s2
    · rw [slice, if_neg hs]
      refine ⟨by split <;> rfl, fun r h => by cases h⟩

theorem validateAuthpathN_32 (b : Build) (leaf : Bytes) (hle : leaf.length = 32) (l : Nat) (sig : Bytes) (o h : Nat) (ps : Bytes)
    (hp : 32 ≤ ps.length) (a : Adrs) :
    validateAuthpathN b S hf 32 leaf l sig o h ps a = validateAuthpathAny b S hf leaf l sig o h ps a := by
  have main : ∀ H m, H - 1 = m → (do
      let a' ← slice sig o 32
      let (bl, br) := if l &&& 1 ≠ 0 then (a', leaf) else (leaf, a')
      let (leafidx, bl, br, addr) ← authPathLoopN S hf 32 ps sig m 0 l (o + 32) bl br a
      let addr := setTreeHeight addr m
      let leafidx := leafidx >>> 1
      let addr := setTreeIndex addr leafidx
      let (_, root, _) ← hashHN S hf 32 (bl ++ br) ps addr (List.replicate 32 0)
      ok root) = validateAuthpath S hf leaf l sig o H ps a := by
    rintro H m rfl
    rw [validateAuthpath]
    by_cases hs : o + 32 ≤ sig.length
    · obtain ⟨s1, s2⟩ := slice_in hs
      rw [s1, ok_bind, ok_bind]
      have key : ∀ x y : Bytes, x.length = 32 → y.length = 32 → (do
          let (leafidx, bl, br, addr) ← authPathLoopN S hf 32 ps sig (H - 1) 0 l (o + 32) x y a
          let addr := setTreeHeight addr (H - 1)
          let leafidx := leafidx >>> 1
          let addr := setTreeIndex addr leafidx
          let (_, root, _) ← hashHN S hf 32 (bl ++ br) ps addr (List.replicate 32 0)
          ok root) = (do
          let (leafidx, bl, br, addr) ← authPathLoop S hf ps sig (H - 1) 0 l (o + 32) x y a
          let addr := setTreeHeight addr (H - 1)
          let leafidx := leafidx >>> 1
          let addr := setTreeIndex addr leafidx
          let (root, _) ← hashH S hf (bl ++ br) ps addr
          ok root) := by
        intro x y hx hy
        obtain ⟨e, hr⟩ := authPathLoopN_32 S hf ps sig hp (H - 1) 0 l (o + 32) x y a hx hy
        rw [e]
        cases hc : authPathLoop S hf ps sig (H - 1) 0 l (o + 32) x y a with
        | err e => rfl
        | panic => rfl
        | ok r =>
          obtain ⟨r1, r2⟩ := hr r hc
          rw [ok_bind, ok_bind]
          dsimp only
          obtain ⟨z, a1, e1, e2, -⟩ := hashHN_32 S hf (r.2.1 ++ r.2.2.1) ps (setTreeIndex (setTreeHeight r.2.2.2 (H - 1)) (r.1 >>> 1))
            (List.replicate 32 0) (by rw [List.length_append, r1, r2]) hp
          rw [e1, e2]; rfl
      dsimp only
      by_cases hc : l &&& 1 ≠ 0
      · rw [if_pos hc]; exact key _ _ s2 hle
      · rw [if_neg hc]; exact key _ _ hle s2
    · rw [slice, if_neg hs]; rfl
  rw [validateAuthpathN, validateAuthpathAny.eq_def]
  by_cases h0 : h = 0
  · subst h0
    rw [if_pos rfl]
    cases b
    · cases hs : slice sig o 32 with
      | err e => exact absurd hs (ne_slice _ _ _ e)
      | panic => rfl
      | ok x => rfl
    · rw [show u32sub .release 0 1 = ok (2 ^ 32 - 1) by decide]
      exact main (2 ^ 32) (2 ^ 32 - 1) rfl
  · rw [if_neg h0, u32sub.eq_def, if_pos (by omega)]
    exact main h (h - 1) rfl

theorem sliceChunksN_32 (sig : Bytes) : ∀ (k o : Nat), sliceChunksN sig 32 o k = sliceChunks sig o k ∧
    ∀ cs, sliceChunks sig o k = ok cs → ∀ c ∈ cs, c.length = 32
  | 0, _ => ⟨rfl, fun cs h => by cases h; intro _ hc; cases hc⟩
  | k + 1, o => by
    obtain ⟨e, hc⟩ := sliceChunksN_32 sig k (o + 32)
    rw [sliceChunksN, sliceChunks, e]
    refine ⟨rfl, fun cs h => ?_⟩
    obtain ⟨x, h1, h⟩ := bind_eq_ok.mp h
    obtain ⟨xs, h2, h⟩ := bind_eq_ok.mp h
    cases h
    intro c hm
    rcases List.mem_cons.mp hm with rfl | hm
    · rw [slice] at h1
      split at h1
      · cases h1; rw [List.length_take, List.length_drop]; omega
      · cases h1
    · exact hc xs h2 c hm

theorem xmssVerifySigN_32 (b : Build) (p : WotsParams) (hk : p.keysize = p.len * 32) (msg : Bytes) (msglen : Nat) (sig pk : Bytes) (h : Nat) :
    xmssVerifySigN b S hf 32 p msg msglen sig pk h = xmssVerifySigRaw b S hf p msg msglen sig pk h := by
  have u1 : u64sub b (4 + 32 + p.len * 32 + h * 32) (32 + 4) = ok (p.len * 32 + h * 32) := by
    rw [u64sub.eq_def, if_pos (by omega)]; congr 1; omega
  have u2 : u64sub b (p.len * 32 + h * 32) p.keysize = ok (h * 32) := by
    rw [hk, u64sub.eq_def, if_pos (by omega)]; congr 1; omega
  have u3 : u64sub b (h * 32) (h * 32) = ok 0 := by
    rw [u64sub.eq_def, if_pos (Nat.le_refl _), Nat.sub_self]
  have hz : 4 + 32 + p.len * 32 + h * 32 - 36 - p.keysize - h * 32 = 0 := by rw [hk]; omega
  rw [xmssVerifySigN, xmssVerifySigRaw]
  dsimp only
  cases hps : slice pk 32 32 with
  | err e => rfl
  | panic => rfl
  | ok ps =>
  have hp : 32 ≤ ps.length := by
    rw [slice] at hps
    split at hps
    · cases hps; rw [List.length_take, List.length_drop]; omega
    · cases hps
  rw [ok_bind, ok_bind]
  cases be32At sig with
  | err e => rfl
  | panic => rfl
  | ok idx =>
  rw [ok_bind, ok_bind]
  cases slice sig 4 32 with
  | err e => rfl
  | panic => rfl
  | ok r =>
  rw [ok_bind, ok_bind]
  cases slice pk 0 32 with
  | err e => rfl
  | panic => rfl
  | ok root0 =>
  rw [ok_bind, ok_bind, toByteN, if_neg (by decide), ok_bind, u1, ok_bind]
  have hmsg : hMsgN S hf 32 msg msglen (r ++ root0 ++ toByte idx 32) (3 * 32) (List.replicate 32 0) =
      (hMsgLen S hf msg msglen (r ++ root0 ++ toByte idx 32) >>= fun d => ok (0, d)) := by
    rw [hMsgN, if_neg (by decide), hMsgLen]
    split
    · rfl
    · exact coreHashN_32 S hf 2 _ 96 msg msglen _
  rw [hmsg]
  cases hMsgLen S hf msg msglen (r ++ root0 ++ toByte idx 32) with
  | err e => rfl
  | panic => rfl
  | ok msgH =>
  rw [ok_bind, ok_bind, ok_bind, verifyRootRaw, hz]
  dsimp only
  obtain ⟨ec, hc⟩ := sliceChunksN_32 sig p.len 36
  rw [show 4 + 32 = 36 from rfl, ec]
  cases hcs : sliceChunks sig 36 p.len with
  | err e => rfl
  | panic => rfl
  | ok cs =>
  rw [ok_bind, ok_bind, wotsPkFromSigN, wotsPkFromSig]
  cases verifyDigits b p msgH with
  | err e => rfl
  | panic => rfl
  | ok ds =>
  rw [ok_bind, ok_bind]
  obtain ⟨ys, a1, e1, e2, hys⟩ := pkFromSigLoopN_32 S hf p ps hp (cs.zip ds) 0 (setOTS (setType {} 0) idx)
    (fun x hx => hc cs hcs _ (List.of_mem_zip hx).1)
  rw [e1, e2, ok_bind, ok_bind]
  dsimp only
  obtain ⟨el, hl⟩ := lTreeLoopN_32 S hf ps hp p.len 0 ys (setTreeHeight (setLtree (setType {} 1) idx) 0) hys
  rw [u2, ok_bind, lTreeN, lTree, el]
  cases hlt : lTreeLoop S hf ps p.len 0 ys (setTreeHeight (setLtree (setType {} 1) idx) 0) with
  | err e => rfl
  | panic => rfl
  | ok r =>
  rw [ok_bind, ok_bind]
  rw [validateAuthpathN_32 S hf b r.1 (hl r hlt) idx sig (36 + p.keysize) h ps hp]
  cases validateAuthpathAny b S hf r.1 idx sig (36 + p.keysize) h ps (setType {} 2) with
  | err e => rfl
  | panic => rfl
  | ok root =>
  rw [ok_bind, ok_bind, u3]
  rfl

end Qrl.Rs
