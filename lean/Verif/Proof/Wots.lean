import Verif.Proof.Shake
import Verif.Spec.Xmss
import Verif.Model.XmssCore

namespace Qrl

open Outcome

theorem toByte_eq_be (v k : Nat) : toByte v k = Spec.be k v := by
  induction k generalizing v with
  | zero => rfl
  | succ k ih =>
    rw [toByte, ih, Spec.be, Spec.be, List.range_succ, List.map_append]
    congr 1
    · apply List.map_congr_left
      intro i hi
      have hi : i < k := List.mem_range.mp hi
      rw [Nat.div_div_eq_div_mul]
      congr 2
      rw [show k + 1 - 1 - i = (k - 1 - i) + 1 by omega, Nat.pow_succ, Nat.mul_comm]
    · have : UInt8.ofNat (v % 256) = UInt8.ofNat v := by apply UInt8.toNat_inj.mp; simp
      simp [this]

theorem be8_zero : Spec.be 8 0 = Spec.be 4 0 ++ Spec.be 4 0 := by decide +kernel

theorem toBytes_eq (ty a b c d : Nat) :
    (⟨0, 0, 0, ty, a, b, c, d⟩ : Adrs).toBytes = Spec.address ty a b c d := by
  simp only [Adrs.toBytes, Spec.address, toByte_eq_be, be8_zero, List.append_assoc]

theorem prf_eq (S : Sha256) (hf : HashFn) (inp key : Bytes) :
    prf S hf inp key = Spec.PRF (hf.prim S) key inp := by
  simp only [prf, coreHash, Spec.PRF, toByte_eq_be]

theorem hMsg_eq (S : Sha256) (hf : HashFn) (inp key : Bytes) :
    hMsg S hf inp key = Spec.Hmsg (hf.prim S) key inp := by
  simp only [hMsg, coreHash, Spec.Hmsg, toByte_eq_be]

theorem hashH_eq (S : Sha256) (hf : HashFn) (l r ps : Bytes) (ty a b c d : Nat) :
    hashH S hf (l ++ r) ps ⟨0, 0, 0, ty, a, b, c, d⟩ =
      (Spec.H (hf.prim S) ps ty a b c l r, ⟨0, 0, 0, ty, a, b, c, 2⟩) := by
  simp only [hashH, Adrs.setKeyAndMask, toBytes_eq, prf_eq, coreHash, toByte_eq_be, Spec.H, Spec.xor, xorBytes]

theorem hashF_eq (S : Sha256) (hf : HashFn) (x ps : Bytes) (ty a b c d : Nat) :
    hashF S hf x ps ⟨0, 0, 0, ty, a, b, c, d⟩ =
      (Spec.F (hf.prim S) ps ty a b c x, ⟨0, 0, 0, ty, a, b, c, 1⟩) := by
  simp only [hashF, Adrs.setKeyAndMask, toBytes_eq, prf_eq, coreHash, toByte_eq_be, Spec.F, Spec.xor, xorBytes]

@[simp] theorem length_PRF (S : Sha256) (hf : HashFn) (k m : Bytes) :
    (Spec.PRF (hf.prim S) k m).length = 32 := length_prim ..
@[simp] theorem length_Hmsg (S : Sha256) (hf : HashFn) (k m : Bytes) :
    (Spec.Hmsg (hf.prim S) k m).length = 32 := length_prim ..
@[simp] theorem length_H (S : Sha256) (hf : HashFn) (ps : Bytes) (t a b c : Nat) (l r : Bytes) :
    (Spec.H (hf.prim S) ps t a b c l r).length = 32 := length_prim ..
@[simp] theorem length_F (S : Sha256) (hf : HashFn) (ps : Bytes) (t a b c : Nat) (x : Bytes) :
    (Spec.F (hf.prim S) ps t a b c x).length = 32 := length_prim ..

@[simp] theorem length_chain (S : Sha256) (hf : HashFn) (ps : Bytes) (i ch n : Nat) :
    ∀ (s : Nat) (x : Bytes), x.length = 32 → (Spec.chain (hf.prim S) ps i ch s n x).length = 32 := by
  induction n with
  | zero => intro s x h; exact h
  | succ n ih => intro s x _; exact ih _ _ (length_F ..)

@[simp] theorem length_wotsSecret (S : Sha256) (hf : HashFn) (sk : Bytes) (i ch : Nat) :
    (Spec.wotsSecret (hf.prim S) sk i ch).length = 32 := length_prim ..

/-- Chains compose. -/
theorem chain_add (G : Bytes → Bytes) (ps : Bytes) (i ch m n : Nat) : ∀ (s : Nat) (x : Bytes),
    Spec.chain G ps i ch (s + m) n (Spec.chain G ps i ch s m x) = Spec.chain G ps i ch s (m + n) x := by
  induction m with
  | zero => intro s x; simp [Spec.chain]
  | succ m ih =>
    intro s x
    rw [show m + 1 + n = (m + n) + 1 by omega]
    simp only [Spec.chain]
    rw [← ih (s + 1), show s + (m + 1) = s + 1 + m by omega]

theorem genChain_eq (S : Sha256) (hf : HashFn) (w : Nat) (ps : Bytes) (i ch : Nat) (n : Nat) :
    ∀ (x : Bytes) (s c d : Nat), s + n ≤ w → ∃ c' d',
      genChain S hf w ps x s n ⟨0, 0, 0, 0, i, ch, c, d⟩ =
        (Spec.chain (hf.prim S) ps i ch s n x, ⟨0, 0, 0, 0, i, ch, c', d'⟩) := by
  induction n with
  | zero => intro x s c d h; exact ⟨c, d, rfl⟩
  | succ n ih =>
    intro x s c d h
    have hs : s < w := by omega
    simp only [genChain, hs, if_true, Adrs.setHash, hashF_eq, Spec.chain]
    exact ih _ (s + 1) s 1 (by omega)

theorem expandSeedLoop_eq (S : Sha256) (hf : HashFn) (key : Bytes) (k : Nat) : ∀ i,
    expandSeedLoop S hf key i k = (List.range' i k).map fun ch => Spec.PRF (hf.prim S) key (Spec.be 32 ch) := by
  induction k with
  | zero => intro i; rfl
  | succ k ih => intro i; simp [expandSeedLoop, ih, List.range'_succ, prf_eq, toByte_eq_be]

theorem expandSeed_eq (S : Sha256) (hf : HashFn) (key : Bytes) (len : Nat) :
    expandSeed S hf key len = (List.range len).map fun ch => Spec.PRF (hf.prim S) key (Spec.be 32 ch) := by
  rw [expandSeed, expandSeedLoop_eq, List.range_eq_range']

theorem getSeed_eq (S : Sha256) (hf : HashFn) (sk : Bytes) (i b c d : Nat) :
    getSeed S hf sk ⟨0, 0, 0, 0, i, b, c, d⟩ =
      (Spec.PRF (hf.prim S) sk (Spec.address 0 i 0 0 0), ⟨0, 0, 0, 0, i, 0, 0, 0⟩) := by
  simp only [getSeed, Adrs.setChain, Adrs.setHash, Adrs.setKeyAndMask, toBytes_eq, prf_eq]

/-- A list of chain starts walked by `pkgenLoop`. -/
theorem pkgenLoop_eq (S : Sha256) (hf : HashFn) (p : WotsParams) (ps : Bytes) (i : Nat) (xs : List Bytes) :
    ∀ (ch b c d : Nat), ∃ b' c' d',
      pkgenLoop S hf p ps ch xs ⟨0, 0, 0, 0, i, b, c, d⟩ =
        ((xs.zipIdx ch).map fun (x, k) => Spec.chain (hf.prim S) ps i k 0 (p.w - 1) x,
          ⟨0, 0, 0, 0, i, b', c', d'⟩) := by
  induction xs with
  | nil => intro ch b c d; exact ⟨b, c, d, rfl⟩
  | cons x xs ih =>
    intro ch b c d
    obtain ⟨c1, d1, h1⟩ := genChain_eq S hf p.w ps i ch (p.w - 1) x 0 c d (by omega)
    obtain ⟨b2, c2, d2, h2⟩ := ih (ch + 1) ch c1 d1
    refine ⟨b2, c2, d2, ?_⟩
    simp only [pkgenLoop, Adrs.setChain, h1, h2, List.zipIdx_cons, List.map_cons]

theorem wotsSignLoop_eq (S : Sha256) (hf : HashFn) (p : WotsParams) (ps : Bytes) (i : Nat)
    (xs : List (Bytes × Nat)) (hx : ∀ y ∈ xs, y.2 ≤ p.w) :
    ∀ (ch b c d : Nat), ∃ b' c' d',
      wotsSignLoop S hf p ps ch xs ⟨0, 0, 0, 0, i, b, c, d⟩ =
        ((xs.zipIdx ch).map fun (x, k) => Spec.chain (hf.prim S) ps i k 0 x.2 x.1,
          ⟨0, 0, 0, 0, i, b', c', d'⟩) := by
  induction xs with
  | nil => intro ch b c d; exact ⟨b, c, d, rfl⟩
  | cons x xs ih =>
    obtain ⟨x, dg⟩ := x
    intro ch b c d
    have hd : dg ≤ p.w := hx (x, dg) (by simp)
    obtain ⟨c1, d1, h1⟩ := genChain_eq S hf p.w ps i ch dg x 0 c d (by omega)
    obtain ⟨b2, c2, d2, h2⟩ := ih (fun y hy => hx y (by simp [hy])) (ch + 1) ch c1 d1
    refine ⟨b2, c2, d2, ?_⟩
    simp only [wotsSignLoop, Adrs.setChain, h1, h2, List.zipIdx_cons, List.map_cons]

theorem pkFromSigLoop_eq (S : Sha256) (hf : HashFn) (p : WotsParams) (ps : Bytes) (i : Nat)
    (xs : List (Bytes × Nat)) (hx : ∀ y ∈ xs, y.2 < p.w) :
    ∀ (ch b c d : Nat), ∃ b' c' d',
      pkFromSigLoop S hf p ps ch xs ⟨0, 0, 0, 0, i, b, c, d⟩ =
        ((xs.zipIdx ch).map fun (x, k) => Spec.chain (hf.prim S) ps i k x.2 (p.w - 1 - x.2) x.1,
          ⟨0, 0, 0, 0, i, b', c', d'⟩) := by
  induction xs with
  | nil => intro ch b c d; exact ⟨b, c, d, rfl⟩
  | cons x xs ih =>
    obtain ⟨x, dg⟩ := x
    intro ch b c d
    have hd : dg < p.w := hx (x, dg) (by simp)
    obtain ⟨c1, d1, h1⟩ := genChain_eq S hf p.w ps i ch (p.w - 1 - dg) x dg c d (by omega)
    obtain ⟨b2, c2, d2, h2⟩ := ih (fun y hy => hx y (by simp [hy])) (ch + 1) ch c1 d1
    refine ⟨b2, c2, d2, ?_⟩
    simp only [pkFromSigLoop, Adrs.setChain, h1, h2, List.zipIdx_cons, List.map_cons]

theorem zipIdx_map_range {α : Type} (f : Nat → α) (n : Nat) :
    ((List.range n).map f).zipIdx = (List.range n).map fun i => (f i, i) := by
  apply List.ext_getElem
  · simp
  · intro i h1 h2; simp

theorem wotsPkgen_eq (S : Sha256) (hf : HashFn) (p : WotsParams) (sk ps : Bytes) (i b c d : Nat) :
    ∃ b' c' d',
      wotsPkgen S hf p (Spec.PRF (hf.prim S) sk (Spec.address 0 i 0 0 0)) ps ⟨0, 0, 0, 0, i, b, c, d⟩ =
        (Spec.wotsPk (hf.prim S) p.w p.len sk ps i, ⟨0, 0, 0, 0, i, b', c', d'⟩) := by
  obtain ⟨b', c', d', h⟩ := pkgenLoop_eq S hf p ps i
    (expandSeed S hf (Spec.PRF (hf.prim S) sk (Spec.address 0 i 0 0 0)) p.len) 0 b c d
  refine ⟨b', c', d', ?_⟩
  rw [wotsPkgen, h, expandSeed_eq, zipIdx_map_range, List.map_map]
  rfl

end Qrl
