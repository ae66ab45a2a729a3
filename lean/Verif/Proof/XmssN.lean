import Verif.Model.XmssN
import Verif.Proof.WotsN

namespace Qrl

open Outcome

/-! ## `n = 32`: the model of the other claims -/

theorem coreHashN_32 (S : Sha256) (hf : HashFn) (type : Nat) (key inp : Bytes) (out : Slot) :
    coreHashN S hf.toNat type (some key) (some inp) 32 out = (0, some (coreHash S hf type key inp)) := by
  simp only [coreHashN, coreHashRaw_supported]

theorem hashFN_32 (S : Sha256) (hf : HashFn) (x ps : Bytes) (addr : Adrs) (out : Slot) :
    hashFN S hf.toNat (some x) ps addr 32 out = (0, some (hashF S hf x ps addr).1, (hashF S hf x ps addr).2) := by
  simp only [hashFN, prfN, coreHashN_32, xorSlot, Option.bind_eq_bind, Option.bind_some, Option.pure_def]
  rfl

theorem hashHN_32 (S : Sha256) (hf : HashFn) (l r ps : Bytes) (addr : Adrs) (out : Slot) :
    hashHN S hf.toNat (joinSlot (some l) (some r)) ps addr 32 out =
      (0, some (hashH S hf (l ++ r) ps addr).1, (hashH S hf (l ++ r) ps addr).2) := by
  simp only [hashHN, prfN, coreHashN_32, xorSlot, joinSlot, Option.bind_eq_bind, Option.bind_some, Option.pure_def]
  rfl

theorem genChainN_32 (S : Sha256) (hf : HashFn) (w : Nat) (ps : Bytes) (m : Nat) : ∀ (x : Bytes) (s : Nat) (a : Adrs),
    genChainN S hf.toNat 32 w ps (some x) s m a = (some (genChain S hf w ps x s m a).1, (genChain S hf w ps x s m a).2) := by
  induction m with
  | zero => intro x s a; rfl
  | succ m ih =>
    intro x s a
    rw [genChainN, genChain]
    split
    · simp only [hashFN_32, ih]
    · rfl

theorem expandSeedN_32 (S : Sha256) (hf : HashFn) (sk : Bytes) : ∀ (os : List Slot) (i : Nat),
    expandSeedN S hf.toNat 32 sk i os = (expandSeedLoop S hf sk i os.length).map some
  | [], _ => rfl
  | o :: os, i => by
    simp only [expandSeedN, expandSeedN_32 S hf sk os, List.length_cons, expandSeedLoop, List.map_cons, prfN, coreHashN_32]
    rfl

theorem pkgenLoopN_32 (S : Sha256) (hf : HashFn) (p : WotsParams) (ps : Bytes) : ∀ (xs : List Bytes) (i : Nat) (a : Adrs),
    pkgenLoopN S hf.toNat 32 p ps i (xs.map some) a = ((pkgenLoop S hf p ps i xs a).1.map some, (pkgenLoop S hf p ps i xs a).2)
  | [], _, _ => rfl
  | x :: xs, i, a => by simp only [List.map_cons, pkgenLoopN, pkgenLoop, genChainN_32, pkgenLoopN_32 S hf p ps xs]

theorem wotsSignLoopN_32 (S : Sha256) (hf : HashFn) (p : WotsParams) (ps : Bytes) : ∀ (xs : List (Bytes × Nat)) (i : Nat) (a : Adrs),
    wotsSignLoopN S hf.toNat 32 p ps i (xs.map fun y => (some y.1, y.2)) a =
      ((wotsSignLoop S hf p ps i xs a).1.map some, (wotsSignLoop S hf p ps i xs a).2)
  | [], _, _ => rfl
  | (x, d) :: xs, i, a => by simp only [List.map_cons, wotsSignLoopN, wotsSignLoop, genChainN_32, wotsSignLoopN_32 S hf p ps xs]

theorem pkFromSigLoopN_32 (S : Sha256) (hf : HashFn) (p : WotsParams) (ps : Bytes) : ∀ (xs : List (Bytes × Nat)) (i : Nat) (a : Adrs),
    pkFromSigLoopN S hf.toNat 32 p ps i (xs.map fun y => (some y.1, y.2)) a =
      ((pkFromSigLoop S hf p ps i xs a).1.map some, (pkFromSigLoop S hf p ps i xs a).2)
  | [], _, _ => rfl
  | (x, d) :: xs, i, a => by simp only [List.map_cons, pkFromSigLoopN, pkFromSigLoop, genChainN_32, pkFromSigLoopN_32 S hf p ps xs]

theorem zip_some (xs : List Bytes) (ds : List Nat) :
    (xs.map some).zip ds = (xs.zip ds).map fun y => (some y.1, y.2) := by rw [List.zip_map_left]; rfl

/-- Marks every slot of a result as written. -/
def wrapList : Outcome (List Bytes × Adrs) → Outcome (List Slot × Adrs)
  | ok (xs, a) => ok (xs.map some, a)
  | ub => ub
  | .throw e => .throw e

/-- Marks the slot of a result as written. -/
def wrapOne : Outcome (Bytes × Adrs) → Outcome (Slot × Adrs)
  | ok (x, a) => ok (some x, a)
  | ub => ub
  | .throw e => .throw e

theorem wotsPkgenN_32 (S : Sha256) (hf : HashFn) (p : WotsParams) (pk : List Slot) (hk : pk.length = p.len) (sk ps : Bytes)
    (a : Adrs) : wotsPkgenN S hf.toNat 32 p pk sk ps a =
      ((wotsPkgen S hf p sk ps a).1.map some, (wotsPkgen S hf p sk ps a).2) := by
  rw [wotsPkgenN, expandSeedN_32, pkgenLoopN_32, hk]; rfl

theorem wotsSignN_32 (S : Sha256) (hf : HashFn) (p : WotsParams) (sig : List Slot) (hk : sig.length = p.len) (msg sk ps : Bytes)
    (a : Adrs) : wotsSignN S hf.toNat 32 p sig msg sk ps a = wrapList (wotsSign S hf p msg sk ps a) := by
  rw [wotsSignN, wotsSign]
  cases signDigits p msg with
  | ok ds => simp only [ok_bind, expandSeedN_32, hk, zip_some, wotsSignLoopN_32]; rfl
  | ub => rfl
  | throw e => rfl

theorem wotsPkFromSigN_32 (S : Sha256) (hf : HashFn) (p : WotsParams) (sig : List Bytes) (msg ps : Bytes) (a : Adrs) :
    wotsPkFromSigN S hf.toNat 32 p (sig.map some) msg ps a = wrapList (wotsPkFromSig S hf p sig msg ps a) := by
  rw [wotsPkFromSigN, wotsPkFromSig]
  cases verifyDigits p msg with
  | ok ds => simp only [ok_bind, zip_some, pkFromSigLoopN_32]; rfl
  | ub => rfl
  | throw e => rfl

theorem rd_map_some (xs : List Bytes) (i : Nat) :
    rd (xs.map some) i = (do let x ← rd xs i; ok (some x) : Outcome Slot) := by
  simp only [rd, List.getElem?_map]
  cases xs[i]? <;> rfl

theorem wr_map_some (xs : List Bytes) (i : Nat) (x : Bytes) :
    wr (xs.map some) i (some x) = (do let ys ← wr xs i x; ok (ys.map some) : Outcome (List Slot)) := by
  simp only [wr, List.length_map]
  split
  · rw [ok_bind, List.map_set]
  · rfl

theorem rd_cases {α : Type} (l : List α) (i : Nat) : (∃ h : i < l.length, rd l i = ok l[i]) ∨ (l.length ≤ i ∧ rd l i = ub) := by
  by_cases h : i < l.length
  · exact .inl ⟨h, by simp [rd, List.getElem?_eq_getElem h]⟩
  · exact .inr ⟨by omega, by simp [rd, List.getElem?_eq_none (Nat.le_of_not_lt h), ofOption]⟩

theorem lTreeRowN_32 (S : Sha256) (hf : HashFn) (ps : Bytes) (k : Nat) : ∀ (i : Nat) (xs : List Bytes) (a : Adrs),
    lTreeRowN S hf.toNat 32 ps k i (xs.map some) a = wrapList (lTreeRow S hf ps k i xs a) := by
  induction k with
  | zero => intro i xs a; rfl
  | succ k ih =>
    intro i xs a
    rw [lTreeRowN, lTreeRow]
    simp only [rd_map_some]
    rcases rd_cases xs (2 * i) with ⟨h1, e1⟩ | ⟨h1, e1⟩
    · rcases rd_cases xs (2 * i + 1) with ⟨h2, e2⟩ | ⟨h2, e2⟩
      · rcases rd_cases xs i with ⟨h3, e3⟩ | ⟨h3, e3⟩
        · simp only [e1, e2, e3, ok_bind, hashHN_32, wr_map_some]
          rw [wr, if_pos h3]
          simp only [ok_bind, ih]
        · omega
      · simp only [e1, e2, ok_bind]; rfl
    · simp only [e1]; rfl

theorem lTreeLoopN_32 (S : Sha256) (hf : HashFn) (ps : Bytes) (l : Nat) : ∀ (height : Nat) (xs : List Bytes) (a : Adrs),
    lTreeLoopN S hf.toNat 32 ps l height (xs.map some) a = wrapOne (lTreeLoop S hf ps l height xs a) := by
  induction l using Nat.strongRecOn with
  | ind l ih =>
    intro height xs a
    have hd : l >>> 1 = l / 2 := Nat.shiftRight_eq_div_pow l 1
    have hm : l &&& 1 = l % 2 := Nat.and_one_is_mod l
    rw [lTreeLoopN, lTreeLoop]
    split
    · rename_i hl
      rw [lTreeRowN_32]
      cases lTreeRow S hf ps (l >>> 1) 0 xs a with
      | ub => rfl
      | throw e => rfl
      | ok r =>
        obtain ⟨ys, b⟩ := r
        simp only [wrapList, ok_bind]
        split
        · rename_i hodd
          rw [rd_map_some]
          rcases rd_cases ys (l - 1) with ⟨h1, e1⟩ | ⟨h1, e1⟩
          · simp only [e1, ok_bind, wr_map_some]
            by_cases h3 : l >>> 1 < ys.length
            · rw [wr, if_pos h3]
              simp only [ok_bind]
              exact ih _ (by omega) _ _ _
            · omega
          · simp only [e1]; rfl
        · exact ih _ (by omega) _ _ _
    · rw [rd_map_some]
      rcases rd_cases xs 0 with ⟨h1, e1⟩ | ⟨h1, e1⟩ <;> simp only [e1] <;> rfl

theorem lTreeN_32 (S : Sha256) (hf : HashFn) (p : WotsParams) (xs : List Bytes) (ps : Bytes) (a : Adrs) :
    lTreeN S hf.toNat 32 p (xs.map some) ps a = wrapOne (lTree S hf p xs ps a) := lTreeLoopN_32 ..

theorem sliceChunksN_32 (sig : Bytes) (k : Nat) : ∀ off, sliceChunksN sig 32 off k =
    (do let cs ← sliceChunks sig off k; ok (cs.map some) : Outcome (List Slot)) := by
  induction k with
  | zero => intro off; rfl
  | succ k ih =>
    intro off
    rw [sliceChunksN, sliceChunks]
    cases slice sig off 32 with
    | ub => rfl
    | throw e => rfl
    | ok c =>
      simp only [ok_bind, ih]
      cases sliceChunks sig (off + 32) k <;> rfl

/-- Marks the buffers of the loop state as written. -/
def wrapPath : Outcome (Nat × Bytes × Bytes × Adrs) → Outcome (Nat × Slot × Slot × Adrs)
  | ok (i, l, r, a) => ok (i, some l, some r, a)
  | ub => ub
  | .throw e => .throw e

theorem authPathLoopN_32 (S : Sha256) (hf : HashFn) (ps sig : Bytes) (m : Nat) :
    ∀ (i leafidx off : Nat) (bl br : Bytes) (a : Adrs),
      authPathLoopN S hf.toNat 32 ps sig m i leafidx off (some bl) (some br) a =
        wrapPath (authPathLoop S hf ps sig m i leafidx off bl br a) := by
  induction m with
  | zero => intro i leafidx off bl br a; rfl
  | succ m ih =>
    intro i leafidx off bl br a
    rw [authPathLoopN, authPathLoop]
    simp only [hashHN_32]
    cases slice sig off 32 with
    | ub => split <;> rfl
    | throw e => split <;> rfl
    | ok c =>
      simp only [ok_bind, ih]
      split <;> rfl

theorem validateAuthpathN_32 (S : Sha256) (hf : HashFn) (leaf : Bytes) (leafidx : Nat) (sig : Bytes) (off h : Nat)
    (hh : 1 ≤ h) (hh' : h < 2 ^ 32) (ps : Bytes) (a : Adrs) :
    validateAuthpathN S hf.toNat 32 (some leaf) leafidx sig off h ps a =
      (do let r ← validateAuthpath S hf leaf leafidx sig off h ps a; ok (some r) : Outcome Slot) := by
  have hs : sub32 h 1 = h - 1 := by unfold sub32; omega
  rw [validateAuthpathN, validateAuthpath, hs]
  cases slice sig off 32 with
  | ub => rfl
  | throw e => rfl
  | ok c =>
    simp only [ok_bind]
    have e : (if leafidx &&& 1 = 1 then (some c, some leaf) else (some leaf, some c) : Slot × Slot) =
        (some (if leafidx &&& 1 = 1 then (c, leaf) else (leaf, c)).1, some (if leafidx &&& 1 = 1 then (c, leaf) else (leaf, c)).2) := by
      split <;> rfl
    rw [e]
    simp only [authPathLoopN_32]
    cases authPathLoop S hf ps sig (h - 1) 0 leafidx (off + 32) (if leafidx &&& 1 = 1 then (c, leaf) else (leaf, c)).1
        (if leafidx &&& 1 = 1 then (c, leaf) else (leaf, c)).2 a with
    | ub => rfl
    | throw e => rfl
    | ok r =>
      obtain ⟨i, l, r, b⟩ := r
      simp only [wrapPath, ok_bind, hashHN_32]

theorem xmssVerifysigN_32 (S : Sha256) (hf : HashFn) (p : WotsParams) (msg sig pk : Bytes) (h : Nat) (hh : 1 ≤ h)
    (hh' : h < 2 ^ 32) : xmssVerifysigN S hf.toNat 32 p msg sig pk h = xmssVerifysig S hf p msg sig pk h := by
  rw [xmssVerifysigN, verifyRootN, xmssVerifysig]
  cases slice pk 32 32 with
  | ub => rfl
  | throw e => rfl
  | ok ps =>
    cases be32At sig with
    | ub => rfl
    | throw e => rfl
    | ok idx =>
      cases slice sig 4 32 with
      | ub => rfl
      | throw e => rfl
      | ok r =>
        cases slice pk 0 32 with
        | ub => rfl
        | throw e => rfl
        | ok root0 =>
          have hm : (hMsgN S hf.toNat (some msg) (some (r ++ root0 ++ toByte idx 32)) (3 * 32) 32 none).2 =
              some (hMsg S hf msg (r ++ root0 ++ toByte idx 32)) := by
            rw [hMsgN, if_neg (by decide), coreHashN_32]; rfl
          simp only [ok_bind, hm, sliceChunksN_32, Nat.reduceAdd]
          cases sliceChunks sig 36 p.len with
          | ub => rfl
          | throw e => rfl
          | ok cs =>
            simp only [ok_bind, wotsPkFromSigN_32]
            cases wotsPkFromSig S hf p cs (hMsg S hf msg (r ++ root0 ++ toByte idx 32)) ps
                ((Adrs.setType {} 0).setOTS idx) with
            | ub => rfl
            | throw e => rfl
            | ok w =>
              obtain ⟨wpk, b⟩ := w
              simp only [wrapList, ok_bind, lTreeN_32]
              cases lTree S hf p wpk ps ((Adrs.setType {} 1).setLtree idx) with
              | ub => rfl
              | throw e => rfl
              | ok lf =>
                obtain ⟨leaf, c⟩ := lf
                simp only [wrapOne, ok_bind, validateAuthpathN_32 S hf leaf idx sig _ h hh hh']
                cases validateAuthpath S hf leaf idx sig (36 + p.keysize) h ps (Adrs.setType {} 2) with
                | ub => rfl
                | throw e => rfl
                | ok root => rfl

theorem wotsSetParamsN_32 (w : Nat) : wotsSetParamsN 32 w = wotsSetParams w := by
  rw [wotsSetParamsN, wotsSetParams]
  split
  · rfl
  · rw [if_neg (show ¬ 8 * 32 ≥ 2 ^ 31 by decide)]
    simp only
    split
    · rfl
    · rename_i hw hl
      split
      · rfl
      · rename_i hp
        have h1 : 8 * 32 / Nat.log2 w ≤ 256 := Nat.div_le_self _ _
        generalize hprod : 8 * 32 / Nat.log2 w * (w - 1) % 2 ^ 32 = prod at hp
        have h2 : Nat.log2 prod < 32 := (Nat.log2_lt hp).mpr (by rw [← hprod]; exact Nat.mod_lt _ (by decide))
        have h3 := Nat.div_le_self (Nat.log2 prod) (Nat.log2 w)
        rw [Nat.mod_eq_of_lt]
        omega

/-! ## `n = 64` -/

theorem zeroBack_ub (k : Nat) : ∀ (msg : Bytes) (i : Nat), i ≤ msg.length → msg.length < i + k → zeroBack i k msg = ub := by
  induction k with
  | zero => intro msg i h1 h2; omega
  | succ k ih =>
    intro msg i h1 h2
    rw [zeroBack, wr]
    split
    · rw [ok_bind]; exact ih _ _ (by simp; omega) (by simp; omega)
    · rfl

theorem copyBack_ub (sig : Bytes) (off k : Nat) : ∀ (msg : Bytes) (i : Nat), i ≤ msg.length → msg.length < i + k →
    copyBack sig off i k msg = ub := by
  induction k with
  | zero => intro msg i h1 h2; omega
  | succ k ih =>
    intro msg i h1 h2
    rw [copyBack]
    rcases rd_cases sig (off + i) with ⟨_, e⟩ | ⟨_, e⟩
    · rw [e, ok_bind, wr]
      split
      · rw [ok_bind]; exact ih _ _ (by simp; omega) (by simp; omega)
      · rfl
    · rw [e]; rfl

/-- The call does not end with an exception. -/
def NoThrow {α : Type} (x : Outcome α) : Prop := ∀ e, x ≠ Outcome.throw e

theorem NoThrow.ok {α : Type} (a : α) : NoThrow (ok a) := fun _ h => by cases h
theorem NoThrow.ub {α : Type} : NoThrow (ub : Outcome α) := fun _ h => by cases h

theorem NoThrow.bind {α β : Type} {x : Outcome α} {f : α → Outcome β} (hx : NoThrow x) (hf : ∀ a, NoThrow (f a)) :
    NoThrow (x >>= f) := by
  cases x with
  | ok a => exact hf a
  | ub => exact NoThrow.ub
  | throw e => exact absurd rfl (hx e)

theorem noThrow_slice (l : Bytes) (a b : Nat) : NoThrow (slice l a b) := by
  unfold slice; split
  · exact .ok _
  · exact .ub

theorem noThrow_rd {α : Type} (l : List α) (i : Nat) : NoThrow (rd l i) := by
  unfold rd; cases l[i]?
  · exact .ub
  · exact .ok _

theorem noThrow_wr {α : Type} (l : List α) (i : Nat) (x : α) : NoThrow (wr l i x) := by
  unfold wr; split
  · exact .ok _
  · exact .ub

theorem noThrow_be32At (l : Bytes) : NoThrow (be32At l) :=
  (noThrow_rd _ _).bind fun _ => (noThrow_rd _ _).bind fun _ => (noThrow_rd _ _).bind fun _ => (noThrow_rd _ _).bind fun _ => .ok _

theorem noThrow_chunks (sig : Bytes) (n k : Nat) : ∀ off, NoThrow (sliceChunksN sig n off k) := by
  induction k with
  | zero => intro off; exact .ok _
  | succ k ih => intro off; exact (noThrow_slice _ _ _).bind fun _ => (ih _).bind fun _ => .ok _

theorem noThrow_baseWLoop (p : WotsParams) (k : Nat) : ∀ (inp : Bytes) (t b : Nat), NoThrow (baseWLoop p inp t b k) := by
  induction k with
  | zero => intro inp t b; exact .ok _
  | succ k ih =>
    intro inp t b
    rw [baseWLoop.eq_def]
    dsimp only
    have step : ∀ (inp : Bytes) (t b : Nat), NoThrow (if b < p.logW then ub
        else do
          let ds ← baseWLoop p inp t (b - p.logW) k
          ok ((t >>> (b - p.logW) &&& p.w - 1) :: ds) : Outcome (List Nat)) := by
      intro inp t b
      split
      · exact .ub
      · exact (ih _ _ _).bind fun _ => .ok _
    split
    · cases inp
      · exact .ub
      · exact step _ _ _
    · exact step _ _ _

theorem noThrow_digits (p : WotsParams) (msg : Bytes) : NoThrow (verifyDigits p msg) :=
  (noThrow_baseWLoop _ _ _ _ _).bind fun _ => (noThrow_baseWLoop _ _ _ _ _).bind fun _ => .ok _

theorem noThrow_row (S : Sha256) (hf n : Nat) (ps : Bytes) (k : Nat) : ∀ (i : Nat) (buf : List Slot) (a : Adrs),
    NoThrow (lTreeRowN S hf n ps k i buf a) := by
  induction k with
  | zero => intro i buf a; exact .ok _
  | succ k ih =>
    intro i buf a
    exact (noThrow_rd _ _).bind fun _ => (noThrow_rd _ _).bind fun _ => (noThrow_rd _ _).bind fun _ =>
      (noThrow_wr _ _ _).bind fun _ => ih _ _ _

theorem noThrow_lTreeLoop (S : Sha256) (hf n : Nat) (ps : Bytes) (l : Nat) : ∀ (height : Nat) (buf : List Slot) (a : Adrs),
    NoThrow (lTreeLoopN S hf n ps l height buf a) := by
  induction l using Nat.strongRecOn with
  | ind l ih =>
    intro height buf a
    have hd : l >>> 1 = l / 2 := Nat.shiftRight_eq_div_pow l 1
    have hm : l &&& 1 = l % 2 := Nat.and_one_is_mod l
    rw [lTreeLoopN]
    split
    · refine (noThrow_row _ _ _ _ _ _ _ _).bind ?_
      rintro ⟨buf, a⟩
      dsimp only
      split
      · exact (noThrow_rd _ _).bind fun _ => (noThrow_wr _ _ _).bind fun _ => ih _ (by omega) _ _ _
      · exact ih _ (by omega) _ _ _
    · exact (noThrow_rd _ _).bind fun _ => .ok _

theorem noThrow_path (S : Sha256) (hf n : Nat) (ps sig : Bytes) (m : Nat) : ∀ (i leafidx off : Nat) (bl br : Slot) (a : Adrs),
    NoThrow (authPathLoopN S hf n ps sig m i leafidx off bl br a) := by
  induction m with
  | zero => intro i leafidx off bl br a; exact .ok _
  | succ m ih =>
    intro i leafidx off bl br a
    rw [authPathLoopN]
    dsimp only
    split
    · exact (noThrow_slice _ _ _).bind fun _ => ih _ _ _ _ _ _
    · exact (noThrow_slice _ _ _).bind fun _ => ih _ _ _ _ _ _

theorem noThrow_validate (S : Sha256) (hf n : Nat) (leaf : Slot) (leafidx : Nat) (sig : Bytes) (off h : Nat) (ps : Bytes) (a : Adrs) :
    NoThrow (validateAuthpathN S hf n leaf leafidx sig off h ps a) :=
  (noThrow_slice _ _ _).bind fun _ => (noThrow_path _ _ _ _ _ _ _ _ _ _ _ _).bind fun _ => .ok _

/-- What `verifyRootN` can return. -/
theorem verifyRootN_len (S : Sha256) (hf n : Nat) (p : WotsParams) (msg sig pk : Bytes) (h : Nat) :
    NoThrow (verifyRootN S hf n p msg sig pk h) ∧
    ∀ r, verifyRootN S hf n p msg sig pk h = ok r →
      (∃ key m, (hMsgN S hf (some msg) (some key) (3 * n) n none).2 = some m) ∧
      r.2.2.2 = sub64 (sub64 (sub64 ((4 + 32 + p.len * 32 + h * 32) % 2 ^ 32) (n + 4)) p.keysize) (h * n) := by
  unfold verifyRootN
  constructor
  · refine (noThrow_slice _ _ _).bind fun ps => (noThrow_be32At _).bind fun idx => (noThrow_slice _ _ _).bind fun r =>
      (noThrow_slice _ _ _).bind fun root0 => ?_
    dsimp only
    split
    · exact .ub
    · exact (noThrow_chunks _ _ _ _).bind fun _ => ((noThrow_digits _ _).bind fun _ => .ok _).bind fun _ =>
        (noThrow_lTreeLoop _ _ _ _ _ _ _ _).bind fun _ => (noThrow_validate _ _ _ _ _ _ _ _ _ _).bind fun _ => .ok _
  · intro r hr
    dsimp only at hr
    obtain ⟨ps, _, hr⟩ := bind_eq_ok.mp hr
    obtain ⟨idx, _, hr⟩ := bind_eq_ok.mp hr
    obtain ⟨r0, _, hr⟩ := bind_eq_ok.mp hr
    obtain ⟨root0, _, hr⟩ := bind_eq_ok.mp hr
    split at hr
    · cases hr
    · next m hm =>
      obtain ⟨_, _, hr⟩ := bind_eq_ok.mp hr
      obtain ⟨_, _, hr⟩ := bind_eq_ok.mp hr
      obtain ⟨_, _, hr⟩ := bind_eq_ok.mp hr
      obtain ⟨_, _, hr⟩ := bind_eq_ok.mp hr
      cases hr
      exact ⟨⟨_, _, hm⟩, rfl⟩

/-! ## The buffers of `n = 64` suffice -/

section
variable {S : Sha256} {hf n : Nat} {G : Bytes → Bytes} (h : Spec.hashN S hf n = some G)
include h

theorem hashHN_written (l r ps : Bytes) (a : Adrs) (out : Slot) :
    hashHN S hf (joinSlot (some l) (some r)) ps a n out = (0, some (Spec.Hn G n ps a l r), a.setKeyAndMask 2) :=
  hashHN_some h l r ps a out

theorem lTreeRowN_written (ps : Bytes) (k : Nat) : ∀ (i : Nat) (xs : List Bytes) (a : Adrs), 2 * (i + k) ≤ xs.length →
    ∃ (ys : List Bytes) (a' : Adrs), lTreeRowN S hf n ps k i (xs.map some) a = ok (ys.map some, a') ∧ ys.length = xs.length := by
  induction k with
  | zero => intro i xs a _; exact ⟨xs, a, rfl, rfl⟩
  | succ k ih =>
    intro i xs a hl
    rw [lTreeRowN]
    simp only [rd_map_some]
    rcases rd_cases xs (2 * i) with ⟨h1, e1⟩ | ⟨h1, e1⟩
    · rcases rd_cases xs (2 * i + 1) with ⟨h2, e2⟩ | ⟨h2, e2⟩
      · rcases rd_cases xs i with ⟨h3, e3⟩ | ⟨h3, e3⟩
        · simp only [e1, e2, e3, ok_bind, hashHN_written h, wr_map_some]
          rw [wr, if_pos h3]
          simp only [ok_bind]
          obtain ⟨ys, a', e, hy⟩ := ih (i + 1) (xs.set i (Spec.Hn G n ps (a.setTreeIndex i) xs[2 * i] xs[2 * i + 1]))
            ((a.setTreeIndex i).setKeyAndMask 2) (by simp; omega)
          exact ⟨ys, a', e, by simpa using hy⟩
        · omega
      · omega
    · omega

theorem lTreeLoopN_written (ps : Bytes) (l : Nat) : ∀ (height : Nat) (xs : List Bytes) (a : Adrs), 1 ≤ l → l ≤ xs.length →
    ∃ (x : Bytes) (a' : Adrs), lTreeLoopN S hf n ps l height (xs.map some) a = ok (some x, a') := by
  induction l using Nat.strongRecOn with
  | ind l ih =>
    intro height xs a hl1 hl2
    have hd : l >>> 1 = l / 2 := Nat.shiftRight_eq_div_pow l 1
    have hm : l &&& 1 = l % 2 := Nat.and_one_is_mod l
    rw [lTreeLoopN]
    split
    · obtain ⟨ys, b, e, hy⟩ := lTreeRowN_written h ps (l >>> 1) 0 xs a (by omega)
      simp only [e, ok_bind]
      split
      · rw [rd_map_some]
        rcases rd_cases ys (l - 1) with ⟨h1, e1⟩ | ⟨h1, e1⟩
        · simp only [e1, ok_bind, wr_map_some]
          rw [wr, if_pos (by omega)]
          simp only [ok_bind]
          exact ih _ (by omega) _ _ _ (by omega) (by simp; omega)
        · omega
      · exact ih _ (by omega) _ _ _ (by omega) (by omega)
    · rw [rd_map_some]
      rcases rd_cases xs 0 with ⟨h1, e1⟩ | ⟨h1, e1⟩
      · simp only [e1, ok_bind]; exact ⟨_, _, rfl⟩
      · omega

theorem authPathLoopN_written (ps sig : Bytes) (m : Nat) : ∀ (i leafidx off : Nat) (bl br : Bytes) (a : Adrs),
    off + m * n ≤ sig.length → ∃ (j : Nat) (l r : Bytes) (a' : Adrs),
      authPathLoopN S hf n ps sig m i leafidx off (some bl) (some br) a = ok (j, some l, some r, a') := by
  induction m with
  | zero => intro i leafidx off bl br a _; exact ⟨_, _, _, _, rfl⟩
  | succ m ih =>
    intro i leafidx off bl br a hs
    have hm : (m + 1) * n = m * n + n := Nat.succ_mul m n
    have e : ∃ c, slice sig off n = ok c := ⟨_, by rw [slice, if_pos (by omega)]⟩
    obtain ⟨c, e⟩ := e
    rw [authPathLoopN]
    simp only [hashHN_written h, e, ok_bind]
    split
    · exact ih _ _ _ _ _ _ (by omega)
    · exact ih _ _ _ _ _ _ (by omega)

end

theorem sliceChunksN_written (sig : Bytes) (n k : Nat) : ∀ off, off + k * n ≤ sig.length →
    ∃ cs : List Bytes, sliceChunksN sig n off k = ok (cs.map some) ∧ cs.length = k := by
  induction k with
  | zero => intro off _; exact ⟨[], rfl, rfl⟩
  | succ k ih =>
    intro off hs
    have hm : (k + 1) * n = k * n + n := Nat.succ_mul k n
    obtain ⟨cs, e, hl⟩ := ih (off + n) (by omega)
    refine ⟨(sig.drop off).take n :: cs, ?_, by simp [hl]⟩
    rw [sliceChunksN, slice, if_pos (by omega)]
    simp only [ok_bind, e]
    rfl

theorem be32At_written (sig : Bytes) (h : 4 ≤ sig.length) : ∃ v, be32At sig = ok v := by
  unfold be32At
  have r : ∀ i, i < 4 → ∃ b, rd sig i = ok b := by
    intro i hi
    rcases rd_cases sig i with ⟨_, e⟩ | ⟨_, _⟩
    · exact ⟨_, e⟩
    · omega
  obtain ⟨b0, e0⟩ := r 0 (by omega)
  obtain ⟨b1, e1⟩ := r 1 (by omega)
  obtain ⟨b2, e2⟩ := r 2 (by omega)
  obtain ⟨b3, e3⟩ := r 3 (by omega)
  simp only [e0, e1, e2, e3, ok_bind]
  exact ⟨_, rfl⟩

theorem verifyRootN_written {S : Sha256} {hf n w : Nat} {G : Bytes → Bytes} (hh : Spec.hashN S hf n = some G) (hn : 1 ≤ n)
    (hn' : n ≤ 4096) (hw : w = 2 ∨ w = 4 ∨ w = 16 ∨ w = 256) {p : WotsParams} (hp : wotsSetParamsN n w = ok p) (msg sig pk : Bytes)
    (h : Nat) (h1 : 1 ≤ h) (h2 : h < 2 ^ 32) (hpk : 2 * n ≤ pk.length) (hsig : 4 + n + p.len * n + h * n ≤ sig.length) :
    ∃ (root : Bytes) (off N : Nat), verifyRootN S hf n p msg sig pk h = ok (some root, pk.take n, off, N) := by
  obtain ⟨he, k, q, hg⟩ := wotsSetParamsN_eq hn hn' hw
  rw [he] at hp
  have hks : p.keysize = p.len * n := by cases hp; rfl
  have hg : GoodN n p k q := by cases hp; exact hg
  obtain ⟨idx, ei⟩ := be32At_written sig (by omega)
  have hkey : ∀ key : Bytes, (hMsgN S hf (some msg) (some key) (3 * n) n none).2 = some (Spec.HmsgN G n key msg) := by
    intro key
    rw [hMsgN, if_neg (by omega), coreHashN_some hh]; rfl
  obtain ⟨cs, ec, hcl⟩ := sliceChunksN_written sig n p.len (n + 4) (by omega)
  have hs1 : slice pk n n = ok ((pk.drop n).take n) := by rw [slice, if_pos (by omega)]
  have hs2 : slice sig 4 n = ok ((sig.drop 4).take n) := by rw [slice, if_pos (by omega)]
  have hs3 : slice pk 0 n = ok (pk.take n) := by rw [slice, if_pos (by omega)]; rfl
  have hsub : sub32 h 1 = h - 1 := by unfold sub32; omega
  have hhn : h * n = n + (h - 1) * n := by
    obtain ⟨h', rfl⟩ : ∃ h', h = h' + 1 := ⟨h - 1, by omega⟩
    rw [Nat.add_sub_cancel, Nat.succ_mul, Nat.add_comm]
  unfold verifyRootN
  simp only [hs1, ei, hs2, hs3, ok_bind, hkey, ec]
  have hml : (Spec.HmsgN G n ((sig.drop 4).take n ++ pk.take n ++ toByte idx n) msg).length = n := length_hashN hh _
  have hds := signDigits_N hg _ hml
  have hdl := length_digitStringN hg _ hml
  have hdlt := digitStringN_lt hg (Spec.HmsgN G n ((sig.drop 4).take n ++ pk.take n ++ toByte idx n) msg)
  generalize Spec.HmsgN G n ((sig.drop 4).take n ++ pk.take n ++ toByte idx n) msg = m at *
  generalize digitString p k q m = ds at *
  have epk := pkFromSigLoopN_some hh p ((pk.drop n).take n) ((Adrs.setType {} 0).setOTS idx) (cs.zip ds)
    (fun y hy => hdlt y.2 (List.of_mem_zip hy).2) 0 0 0 0
  rw [wotsPkFromSigN, verifyDigits_eq_signDigits, hds, ok_bind, zip_some]
  simp only [ok_bind]
  have ea : ({ (Adrs.setType {} 0).setOTS idx with w5 := 0, w6 := 0, w7 := 0 } : Adrs) = (Adrs.setType {} 0).setOTS idx := rfl
  rw [ea] at epk
  rw [epk]
  obtain ⟨leaf, b, el⟩ := lTreeLoopN_written hh ((pk.drop n).take n) p.len 0
    (((cs.zip ds).zipIdx 0).map fun (x, k) => Spec.chainN G n ((pk.drop n).take n) ((Adrs.setType {} 0).setOTS idx) k x.2 (p.w - 1 - x.2) x.1)
    (((Adrs.setType {} 1).setLtree idx).setTreeHeight 0) (by have := hg.len; have := hg.len2; omega) (by simp [hcl, hdl])
  rw [lTreeN, el]
  simp only [ok_bind]
  have hs4 : slice sig (n + 4 + p.keysize) n = ok ((sig.drop (n + 4 + p.keysize)).take n) := by
    rw [slice, if_pos (by omega)]
  rw [validateAuthpathN, hs4, ok_bind, hsub]
  split
  next bl br hb =>
  obtain ⟨l, r, hl, hr⟩ : ∃ l r : Bytes, bl = some l ∧ br = some r := by
    split at hb <;> (cases hb; exact ⟨_, _, rfl, rfl⟩)
  subst hl; subst hr
  obtain ⟨j, l', r', a', e⟩ := authPathLoopN_written hh ((pk.drop n).take n) sig (h - 1) 0 idx (n + 4 + p.keysize + n) l r
    (Adrs.setType {} 2) (by omega)
  simp only [e, ok_bind, hashHN_written hh]
  exact ⟨_, _, _, rfl⟩

end Qrl
