import Verif.Proof.RustKeccak
/-!
# Function-by-function simulation of the C++ code by the Rust port

`Sim c r`: whenever the C++ function returns normally, the Rust function returns the same value. Rust often passes a
longer slice where C++ has exactly the 32 bytes that are used, hence the `take 32` on the C++ side.
-/

namespace Qrl.Rs

open Res

/-- Whenever the C++ result is a value, the Rust result is the same value. -/
def Sim {α : Type} (c : Outcome α) (r : Res α) : Prop := ∀ x, c = .ok x → r = ok x

namespace Sim

variable {α β : Type}

theorem rfl' (x : α) : Sim (.ok x) (ok x) := by
  intro y h; cases h; rfl

theorem ub (r : Res α) : Sim .ub r := by intro y h; cases h

theorem throw (e : Exc) (r : Res α) : Sim (.throw e) r := by intro y h; cases h

theorem bind {c : Outcome α} {r : Res α} {f : α → Outcome β} {g : α → Res β} (h : Sim c r) (hf : ∀ a, Sim (f a) (g a)) :
    Sim (c >>= f) (r >>= g) := by
  intro y hy
  rw [Outcome.bind_eq_ok] at hy
  obtain ⟨a, h1, h2⟩ := hy
  rw [h a h1, ok_bind]
  exact hf a y h2

/-- The continuation may use that the C++ step returned `a`. -/
theorem bind' {c : Outcome α} {r : Res α} {f : α → Outcome β} {g : α → Res β} (h : Sim c r)
    (hf : ∀ a, c = .ok a → Sim (f a) (g a)) : Sim (c >>= f) (r >>= g) := by
  intro y hy
  rw [Outcome.bind_eq_ok] at hy
  obtain ⟨a, h1, h2⟩ := hy
  rw [h a h1, ok_bind]
  exact hf a h1 y h2

theorem ite {p q : Prop} [Decidable p] [Decidable q] {c1 c2 : Outcome α} {r1 r2 : Res α} (hpq : p ↔ q)
    (h1 : p → Sim c1 r1) (h2 : ¬ p → Sim c2 r2) : Sim (if p then c1 else c2) (if q then r1 else r2) := by
  by_cases h : p
  · rw [if_pos h, if_pos (hpq.mp h)]; exact h1 h
  · rw [if_neg h, if_neg (fun hq => h (hpq.mpr hq))]; exact h2 h

end Sim

theorem sim_rd {α : Type} (l : List α) (i : Nat) : Sim (Qrl.rd l i) (rd l i) := by
  intro y h
  unfold Qrl.rd Outcome.ofOption at h
  unfold rd
  cases hl : l[i]? with
  | none => rw [hl] at h; cases h
  | some a => rw [hl] at h; cases h; rfl

theorem sim_wr {α : Type} (l : List α) (i : Nat) (x : α) : Sim (Qrl.wr l i x) (wr l i x) := by
  unfold Qrl.wr wr
  exact Sim.ite Iff.rfl (fun _ => Sim.rfl' _) (fun _ => Sim.ub _)

theorem sim_slice (l : Bytes) (off len : Nat) : Sim (Qrl.slice l off len) (slice l off len) := by
  unfold Qrl.slice slice
  exact Sim.ite Iff.rfl (fun _ => Sim.rfl' _) (fun _ => Sim.ub _)

theorem rdUse_some {α : Type} {l : List (Option α)} {i : Nat} {y : α} (h : rdUse l i = .ok y) : l[i]? = some (some y) := by
  unfold rdUse Qrl.rd at h
  cases hl : l[i]? with
  | none => rw [hl] at h; cases h
  | some c =>
    rw [hl] at h
    cases c with
    | none => cases h
    | some b => cases h; rfl

theorem sim_rdNode (l : List Cell) (i : Nat) : Sim (rdUse l i) (rdNode l i) := by
  intro y h
  unfold rdNode
  rw [rdUse_some h]

theorem sim_rdLevel (l : List (Option Nat)) (i : Nat) : Sim (rdUse l i) (rdLevel l i) := by
  intro y h
  unfold rdLevel
  rw [rdUse_some h]

theorem adrsBytes_eq (a : Adrs) : adrsBytes a = a.toBytes := by
  unfold adrsBytes Adrs.toBytes
  simp only [toByte_rs]

theorem length_adrs (a : Adrs) : a.toBytes.length = 32 := by
  unfold Adrs.toBytes
  simp [toByte_eq_be, length_be]

theorem length_toByte (v k : Nat) : (Qrl.toByte v k).length = k := by rw [toByte_eq_be, length_be]

theorem length_prim (S : Sha256) (hf : HashFn) (m : Bytes) : (hf.prim S m).length = 32 := by
  cases hf
  · exact S.length_hash m
  · exact length_shake128 32 m
  · exact length_shake256 32 m

theorem length_prf (S : Sha256) (hf : HashFn) (a b : Bytes) : (Qrl.prf S hf a b).length = 32 := length_prim S hf _

theorem length_coreHash (S : Sha256) (hf : HashFn) (t : Nat) (a b : Bytes) : (Qrl.coreHash S hf t a b).length = 32 :=
  length_prim S hf _

theorem prf_rs (S : Sha256) (hf : HashFn) (m key : Bytes) (hm : m.length = 32) (hk : 32 ≤ key.length) :
    prf S hf m key = ok (Qrl.prf S hf m (key.take 32)) := by
  rw [prf]
  have := coreHash_short S hf 3 key 32 m hk (by omega)
  rw [hm] at this
  exact this

theorem hashH_rs (S : Sha256) (hf : HashFn) (inp ps : Bytes) (a : Adrs) (hp : 32 ≤ ps.length) :
    hashH S hf inp ps a = ok (Qrl.hashH S hf inp (ps.take 32) a) := by
  rw [hashH]
  simp only [adrsBytes_eq]
  rw [prf_rs S hf _ ps (length_adrs _) hp, prf_rs S hf _ ps (length_adrs _) hp, prf_rs S hf _ ps (length_adrs _) hp]
  simp only [ok_bind]
  have hx : xorBytes = Qrl.xorBytes := rfl
  have hl : ∀ m : Bytes, m.length = 64 → (xorBytes inp m).length ≤ 64 := by
    intro m hm; unfold xorBytes; rw [List.length_zipWith]; omega
  rw [coreHash_short S hf 1 _ 32 _ (by rw [length_prf])
    (by have := hl (Qrl.prf S hf (setKeyAndMask (setKeyAndMask a 0) 1).toBytes (ps.take 32) ++
          Qrl.prf S hf (setKeyAndMask (setKeyAndMask (setKeyAndMask a 0) 1) 2).toBytes (ps.take 32))
          (by rw [List.length_append, length_prf, length_prf])
        omega)]
  simp only [ok_bind]
  rw [List.take_of_length_le (by rw [length_prf])]
  rfl

theorem hashF_rs (S : Sha256) (hf : HashFn) (inp ps : Bytes) (a : Adrs) (hp : 32 ≤ ps.length) :
    hashF S hf inp ps a = ok (Qrl.hashF S hf inp (ps.take 32) a) := by
  rw [hashF]
  simp only [adrsBytes_eq]
  rw [prf_rs S hf _ ps (length_adrs _) hp, prf_rs S hf _ ps (length_adrs _) hp]
  simp only [ok_bind]
  have hl : ∀ m : Bytes, m.length = 32 → (xorBytes inp m).length ≤ 32 := by
    intro m hm; unfold xorBytes; rw [List.length_zipWith]; omega
  rw [coreHash_short S hf 0 _ 32 _ (by rw [length_prf])
    (by have := hl (Qrl.prf S hf (setKeyAndMask (setKeyAndMask a 0) 1).toBytes (ps.take 32))
          (by rw [length_prf])
        omega)]
  simp only [ok_bind]
  rw [List.take_of_length_le (by rw [length_prf])]
  rfl

section wots

variable (S : Sha256) (hf : HashFn)

theorem expandSeedLoop_rs (seed : Bytes) (hs : 32 ≤ seed.length) : ∀ (k i : Nat),
    expandSeedLoop S hf seed i k = ok (Qrl.expandSeedLoop S hf (seed.take 32) i k)
  | 0, _ => rfl
  | k + 1, i => by
    rw [expandSeedLoop, toByte_rs, prf_rs S hf _ _ (length_toByte _ _) hs, expandSeedLoop_rs seed hs k (i + 1)]
    rfl

theorem genChain_rs (w : Nat) (ps : Bytes) (hp : 32 ≤ ps.length) : ∀ (steps i : Nat) (x : Bytes) (a : Adrs),
    genChain S hf w ps x i steps a = ok (Qrl.genChain S hf w (ps.take 32) x i steps a)
  | 0, _, _, _ => rfl
  | steps + 1, i, x, a => by
    rw [genChain, Qrl.genChain]
    by_cases h : i < w
    · rw [if_pos h, if_pos h]
      simp only [hashF_rs S hf _ ps _ hp, ok_bind]
      exact genChain_rs w ps hp steps (i + 1) _ _
    · rw [if_neg h, if_neg h]

theorem baseWLoop_sim (b : Build) (p : WotsParams) (hl : 1 ≤ p.logW) : ∀ (k : Nat) (inp : Bytes) (total bits : Nat), bits ≤ 8 →
    Sim (Qrl.baseWLoop p inp total bits k) (baseWLoop b p inp total bits k)
  | 0, _, _, _, _ => Sim.rfl' _
  | k + 1, inp, total, bits, hb => by
    rw [Qrl.baseWLoop.eq_def, baseWLoop.eq_def]
    dsimp only
    have rest : ∀ (x : Bytes × Nat × Nat), x.2.2 ≤ 8 → Sim
        (if x.2.2 < p.logW then Outcome.ub
          else do
            let ds ← Qrl.baseWLoop p x.1 x.2.1 (x.2.2 - p.logW) k
            Outcome.ok ((x.2.1 >>> (x.2.2 - p.logW) &&& p.w - 1) :: ds))
        (do
            let bits ← u32sub b x.2.2 p.logW
            let t ← shr8 b x.2.1 bits
            let ds ← baseWLoop b p x.1 x.2.1 bits k
            ok ((t &&& p.w - 1) :: ds)) := by
      intro x hx
      by_cases hc : x.2.2 < p.logW
      · rw [if_pos hc]; exact Sim.ub _
      · rw [if_neg hc, u32sub.eq_def, if_pos (by omega), ok_bind, shr8.eq_def, if_pos (by omega), ok_bind]
        exact Sim.bind (baseWLoop_sim b p hl k _ _ _ (by omega)) (fun _ => Sim.rfl' _)
    refine Sim.ite Iff.rfl (fun _ => ?_) (fun _ => rest (inp, total, bits) hb)
    cases inp with
    | nil => exact Sim.ub _
    | cons x r => exact rest (r, x.toNat, bits + 8) (by show bits + 8 ≤ 8; omega)

theorem checksum_rs (p : WotsParams) : ∀ l, checksum p l = Qrl.checksum p l
  | [] => rfl
  | d :: l => by rw [checksum, Qrl.checksum, checksum_rs p l]

theorem signDigits_sim (b : Build) (p : WotsParams) (hl : 1 ≤ p.logW) (m : Bytes) : Sim (Qrl.signDigits p m) (signDigits b p m) := by
  unfold Qrl.signDigits signDigits
  refine Sim.bind (baseWLoop_sim b p hl _ _ _ _ (by omega)) (fun ds => ?_)
  simp only [checksum_rs, toByte_rs]
  exact Sim.bind (baseWLoop_sim b p hl _ _ _ _ (by omega)) (fun _ => Sim.rfl' _)

theorem verifyDigits_sim (b : Build) (p : WotsParams) (hl : 1 ≤ p.logW) (m : Bytes) : Sim (Qrl.verifyDigits p m) (verifyDigits b p m) := by
  unfold Qrl.verifyDigits verifyDigits
  refine Sim.bind (baseWLoop_sim b p hl _ _ _ _ (by omega)) (fun ds => ?_)
  simp only [checksum_rs, toByte_rs]
  exact Sim.bind (baseWLoop_sim b p hl _ _ _ _ (by omega)) (fun _ => Sim.rfl' _)

theorem pkgenLoop_rs (p : WotsParams) (ps : Bytes) (hp : 32 ≤ ps.length) : ∀ (xs : List Bytes) (i : Nat) (a : Adrs),
    pkgenLoop S hf p ps i xs a = ok (Qrl.pkgenLoop S hf p (ps.take 32) i xs a)
  | [], _, _ => rfl
  | x :: xs, i, a => by
    rw [pkgenLoop, Qrl.pkgenLoop]
    simp only [genChain_rs S hf _ ps hp, ok_bind, pkgenLoop_rs p ps hp xs]
    rfl

theorem wotsSignLoop_rs (p : WotsParams) (ps : Bytes) (hp : 32 ≤ ps.length) :
    ∀ (xs : List (Bytes × Nat)) (i : Nat) (a : Adrs),
    wotsSignLoop S hf p ps i xs a = ok (Qrl.wotsSignLoop S hf p (ps.take 32) i xs a)
  | [], _, _ => rfl
  | (x, d) :: xs, i, a => by
    rw [wotsSignLoop, Qrl.wotsSignLoop]
    simp only [genChain_rs S hf _ ps hp, ok_bind, wotsSignLoop_rs p ps hp xs]
    rfl

theorem pkFromSigLoop_rs (p : WotsParams) (ps : Bytes) (hp : 32 ≤ ps.length) :
    ∀ (xs : List (Bytes × Nat)) (i : Nat) (a : Adrs),
    pkFromSigLoop S hf p ps i xs a = ok (Qrl.pkFromSigLoop S hf p (ps.take 32) i xs a)
  | [], _, _ => rfl
  | (x, d) :: xs, i, a => by
    rw [pkFromSigLoop, Qrl.pkFromSigLoop]
    simp only [genChain_rs S hf _ ps hp, ok_bind, pkFromSigLoop_rs p ps hp xs]
    rfl

theorem wotsPkgen_rs (p : WotsParams) (sk ps : Bytes) (a : Adrs) (hs : 32 ≤ sk.length) (hp : 32 ≤ ps.length) :
    wotsPkgen S hf p sk ps a = ok (Qrl.wotsPkgen S hf p (sk.take 32) (ps.take 32) a) := by
  rw [wotsPkgen, expandSeed, expandSeedLoop_rs S hf sk hs, ok_bind, pkgenLoop_rs S hf p ps hp]
  rfl

theorem wotsSign_sim (b : Build) (p : WotsParams) (hl : 1 ≤ p.logW) (m sk ps : Bytes) (a : Adrs) (hs : 32 ≤ sk.length) (hp : 32 ≤ ps.length) :
    Sim (Qrl.wotsSign S hf p m (sk.take 32) (ps.take 32) a) (wotsSign b S hf p m sk ps a) := by
  unfold Qrl.wotsSign wotsSign
  refine Sim.bind (signDigits_sim b p hl m) (fun ds => ?_)
  rw [expandSeed, expandSeedLoop_rs S hf sk hs, ok_bind, wotsSignLoop_rs S hf p ps hp]
  exact Sim.rfl' _

theorem wotsPkFromSig_sim (b : Build) (p : WotsParams) (hl : 1 ≤ p.logW) (sig : List Bytes) (m ps : Bytes) (a : Adrs) (hp : 32 ≤ ps.length) :
    Sim (Qrl.wotsPkFromSig S hf p sig m (ps.take 32) a) (wotsPkFromSig b S hf p sig m ps a) := by
  unfold Qrl.wotsPkFromSig wotsPkFromSig
  refine Sim.bind (verifyDigits_sim b p hl m) (fun ds => ?_)
  rw [pkFromSigLoop_rs S hf p ps hp]
  exact Sim.rfl' _

end wots

theorem and_one_iff (l : Nat) : l &&& 1 = 1 ↔ l &&& 1 ≠ 0 := by
  rw [Nat.and_one_is_mod]; omega

section common

variable (S : Sha256) (hf : HashFn)

theorem lTreeRow_sim (ps : Bytes) (hp : 32 ≤ ps.length) : ∀ (k i : Nat) (buf : List Bytes) (a : Adrs),
    Sim (Qrl.lTreeRow S hf (ps.take 32) k i buf a) (lTreeRow S hf ps k i buf a)
  | 0, _, _, _ => Sim.rfl' _
  | k + 1, i, buf, a => by
    rw [Qrl.lTreeRow.eq_def, lTreeRow.eq_def]
    dsimp only
    refine Sim.bind (sim_rd _ _) (fun l => Sim.bind (sim_rd _ _) (fun r => ?_))
    simp only [hashH_rs S hf _ ps _ hp, ok_bind]
    exact Sim.bind (sim_wr _ _ _) (fun b => lTreeRow_sim ps hp k (i + 1) b _)

theorem lTreeLoop_sim (ps : Bytes) (hp : 32 ≤ ps.length) (l : Nat) : ∀ (height : Nat) (buf : List Bytes) (a : Adrs),
    Sim (Qrl.lTreeLoop S hf (ps.take 32) l height buf a) (lTreeLoop S hf ps l height buf a) := by
  induction l using Nat.strongRecOn with
  | ind l ih =>
    intro height buf a
    rw [Qrl.lTreeLoop, lTreeLoop]
    by_cases hl : l > 1
    · rw [dif_pos hl, dif_pos hl]
      have hs : l >>> 1 = l / 2 := Nat.shiftRight_eq_div_pow l 1
      have h1 : l &&& 1 = l % 2 := Nat.and_one_is_mod l
      refine Sim.bind (lTreeRow_sim S hf ps hp _ _ _ _) ?_
      rintro ⟨buf', a'⟩
      refine Sim.ite (and_one_iff l) (fun h => ?_) (fun h => ?_)
      · exact Sim.bind (sim_rd _ _) (fun x => Sim.bind (sim_wr _ _ _) (fun b => ih _ (by omega) _ _ _))
      · exact ih _ (by omega) _ _ _
    · rw [dif_neg hl, dif_neg hl]
      exact Sim.bind (sim_rd _ _) (fun x => Sim.rfl' _)

theorem lTree_sim (p : WotsParams) (pk : List Bytes) (ps : Bytes) (a : Adrs) (hp : 32 ≤ ps.length) :
    Sim (Qrl.lTree S hf p pk (ps.take 32) a) (lTree S hf p pk ps a) :=
  lTreeLoop_sim S hf ps hp _ _ _ _

theorem authPathLoop_sim (ps sig : Bytes) (hp : 32 ≤ ps.length) : ∀ (m i leafidx off : Nat) (bl br : Bytes) (a : Adrs),
    Sim (Qrl.authPathLoop S hf (ps.take 32) sig m i leafidx off bl br a) (authPathLoop S hf ps sig m i leafidx off bl br a)
  | 0, _, _, _, _, _, _ => Sim.rfl' _
  | m + 1, i, leafidx, off, bl, br, a => by
    rw [Qrl.authPathLoop.eq_def, authPathLoop.eq_def]
    dsimp only
    simp only [hashH_rs S hf _ ps _ hp, ok_bind]
    refine Sim.bind (sim_slice _ _ _) (fun x => ?_)
    exact Sim.ite (and_one_iff _) (fun _ => authPathLoop_sim ps sig hp m _ _ _ _ _ _)
      (fun _ => authPathLoop_sim ps sig hp m _ _ _ _ _ _)

theorem validateAuthpath_sim (leaf : Bytes) (leafidx : Nat) (sig : Bytes) (off h : Nat) (ps : Bytes) (a : Adrs)
    (hp : 32 ≤ ps.length) :
    Sim (Qrl.validateAuthpath S hf leaf leafidx sig off h (ps.take 32) a) (validateAuthpath S hf leaf leafidx sig off h ps a) := by
  unfold Qrl.validateAuthpath validateAuthpath
  refine Sim.bind (sim_slice _ _ _) (fun x => ?_)
  have e : (if leafidx &&& 1 = 1 then (x, leaf) else (leaf, x)) = (if leafidx &&& 1 ≠ 0 then (x, leaf) else (leaf, x)) := by
    by_cases h : leafidx &&& 1 = 1
    · rw [if_pos h, if_pos ((and_one_iff _).mp h)]
    · rw [if_neg h, if_neg (fun hq => h ((and_one_iff _).mpr hq))]
  rw [← e]
  refine Sim.bind (authPathLoop_sim S hf ps sig hp _ _ _ _ _ _ _) ?_
  rintro ⟨li, bl, br, a'⟩
  simp only [hashH_rs S hf _ ps _ hp, ok_bind]
  exact Sim.rfl' _

theorem sliceChunks_sim (sig : Bytes) : ∀ (k off : Nat), Sim (Qrl.sliceChunks sig off k) (sliceChunks sig off k)
  | 0, _ => Sim.rfl' _
  | k + 1, off => by
    rw [Qrl.sliceChunks.eq_def, sliceChunks.eq_def]
    dsimp only
    exact Sim.bind (sim_slice _ _ _) (fun x => Sim.bind (sliceChunks_sim sig k _) (fun _ => Sim.rfl' _))

theorem be32At_sim (l : Bytes) : Sim (Qrl.be32At l) (be32At l) := by
  unfold Qrl.be32At be32At
  exact Sim.bind (sim_rd _ _) (fun _ => Sim.bind (sim_rd _ _) (fun _ => Sim.bind (sim_rd _ _) (fun _ =>
    Sim.bind (sim_rd _ _) (fun _ => Sim.rfl' _))))

theorem copyBack_sim (sig : Bytes) (off : Nat) : ∀ (k i : Nat) (m : Bytes),
    Sim (Qrl.copyBack sig off i k m) (copyBack sig off i k m)
  | 0, _, _ => Sim.rfl' _
  | k + 1, i, m => by
    rw [Qrl.copyBack.eq_def, copyBack.eq_def]
    dsimp only
    exact Sim.bind (sim_rd _ _) (fun x => Sim.bind (sim_wr _ _ _) (fun b => copyBack_sim sig off k _ _))

theorem zeroBack_sim : ∀ (k i : Nat) (m : Bytes), Sim (Qrl.zeroBack i k m) (zeroBack i k m)
  | 0, _, _ => Sim.rfl' _
  | k + 1, i, m => by
    rw [Qrl.zeroBack.eq_def, zeroBack.eq_def]
    dsimp only
    exact Sim.bind (sim_wr _ _ _) (fun b => zeroBack_sim k _ _)

end common

end Qrl.Rs
