import Verif.Proof.Digits

namespace Qrl

open Outcome

/-- One chain step at an arbitrary address; the two last words of the address do not matter. -/
def stepAt (S : Sha256) (hf : HashFn) (ps : Bytes) (x0 x1 x2 x3 x4 ch c : Nat) (x : Bytes) : Bytes :=
  (hashF S hf x ps ⟨x0, x1, x2, x3, x4, ch, c, 0⟩).1

/-- `n` chain steps at an arbitrary address. -/
def chainAt (S : Sha256) (hf : HashFn) (ps : Bytes) (x0 x1 x2 x3 x4 ch : Nat) : Nat → Nat → Bytes → Bytes
  | _, 0, x => x
  | s, n + 1, x => chainAt S hf ps x0 x1 x2 x3 x4 ch (s + 1) n (stepAt S hf ps x0 x1 x2 x3 x4 ch s x)

theorem hashF_gen (S : Sha256) (hf : HashFn) (ps x : Bytes) (x0 x1 x2 x3 x4 ch c d : Nat) :
    hashF S hf x ps ⟨x0, x1, x2, x3, x4, ch, c, d⟩ =
      (stepAt S hf ps x0 x1 x2 x3 x4 ch c x, ⟨x0, x1, x2, x3, x4, ch, c, 1⟩) := rfl

theorem genChain_gen (S : Sha256) (hf : HashFn) (w : Nat) (ps : Bytes) (x0 x1 x2 x3 x4 ch : Nat) (n : Nat) :
    ∀ (x : Bytes) (s c d : Nat), s + n ≤ w → ∃ c' d',
      genChain S hf w ps x s n ⟨x0, x1, x2, x3, x4, ch, c, d⟩ =
        (chainAt S hf ps x0 x1 x2 x3 x4 ch s n x, ⟨x0, x1, x2, x3, x4, ch, c', d'⟩) := by
  induction n with
  | zero => intro x s c d h; exact ⟨c, d, rfl⟩
  | succ n ih =>
    intro x s c d h
    have hs : s < w := by omega
    simp only [genChain, hs, if_true, Adrs.setHash, hashF_gen, chainAt]
    exact ih _ (s + 1) s 1 (by omega)

theorem chainAt_add (S : Sha256) (hf : HashFn) (ps : Bytes) (x0 x1 x2 x3 x4 ch m n : Nat) : ∀ (s : Nat) (x : Bytes),
    chainAt S hf ps x0 x1 x2 x3 x4 ch (s + m) n (chainAt S hf ps x0 x1 x2 x3 x4 ch s m x) =
      chainAt S hf ps x0 x1 x2 x3 x4 ch s (m + n) x := by
  induction m with
  | zero => intro s x; simp [chainAt]
  | succ m ih =>
    intro s x
    rw [show m + 1 + n = (m + n) + 1 by omega]
    simp only [chainAt]
    rw [← ih (s + 1), show s + (m + 1) = s + 1 + m by omega]

theorem length_chainAt (S : Sha256) (hf : HashFn) (ps : Bytes) (x0 x1 x2 x3 x4 ch n : Nat) :
    ∀ (s : Nat) (x : Bytes), x.length = 32 → (chainAt S hf ps x0 x1 x2 x3 x4 ch s n x).length = 32 := by
  induction n with
  | zero => intro s x h; exact h
  | succ n ih =>
    intro s x _
    exact ih _ _ (by simp [stepAt, hashF, coreHash])

theorem pkgenLoop_gen (S : Sha256) (hf : HashFn) (p : WotsParams) (ps : Bytes) (x0 x1 x2 x3 x4 : Nat) (xs : List Bytes) :
    ∀ (ch b c d : Nat),
      (pkgenLoop S hf p ps ch xs ⟨x0, x1, x2, x3, x4, b, c, d⟩).1 =
        (xs.zipIdx ch).map fun (x, k) => chainAt S hf ps x0 x1 x2 x3 x4 k 0 (p.w - 1) x := by
  induction xs with
  | nil => intro ch b c d; rfl
  | cons x xs ih =>
    intro ch b c d
    obtain ⟨c1, d1, h1⟩ := genChain_gen S hf p.w ps x0 x1 x2 x3 x4 ch (p.w - 1) x 0 c d (by omega)
    simp only [pkgenLoop, Adrs.setChain, h1, List.zipIdx_cons, List.map_cons, ih]

theorem wotsSignLoop_gen (S : Sha256) (hf : HashFn) (p : WotsParams) (ps : Bytes) (x0 x1 x2 x3 x4 : Nat)
    (xs : List (Bytes × Nat)) (hx : ∀ y ∈ xs, y.2 ≤ p.w) :
    ∀ (ch b c d : Nat),
      (wotsSignLoop S hf p ps ch xs ⟨x0, x1, x2, x3, x4, b, c, d⟩).1 =
        (xs.zipIdx ch).map fun (x, k) => chainAt S hf ps x0 x1 x2 x3 x4 k 0 x.2 x.1 := by
  induction xs with
  | nil => intro ch b c d; rfl
  | cons x xs ih =>
    obtain ⟨x, dg⟩ := x
    intro ch b c d
    have hd : dg ≤ p.w := hx (x, dg) (by simp)
    obtain ⟨c1, d1, h1⟩ := genChain_gen S hf p.w ps x0 x1 x2 x3 x4 ch dg x 0 c d (by omega)
    simp only [wotsSignLoop, Adrs.setChain, h1, List.zipIdx_cons, List.map_cons,
      ih (fun y hy => hx y (by simp [hy]))]

theorem pkFromSigLoop_gen (S : Sha256) (hf : HashFn) (p : WotsParams) (ps : Bytes) (x0 x1 x2 x3 x4 : Nat)
    (xs : List (Bytes × Nat)) (hx : ∀ y ∈ xs, y.2 < p.w) :
    ∀ (ch b c d : Nat),
      (pkFromSigLoop S hf p ps ch xs ⟨x0, x1, x2, x3, x4, b, c, d⟩).1 =
        (xs.zipIdx ch).map fun (x, k) => chainAt S hf ps x0 x1 x2 x3 x4 k x.2 (p.w - 1 - x.2) x.1 := by
  induction xs with
  | nil => intro ch b c d; rfl
  | cons x xs ih =>
    obtain ⟨x, dg⟩ := x
    intro ch b c d
    have hd : dg < p.w := hx (x, dg) (by simp)
    obtain ⟨c1, d1, h1⟩ := genChain_gen S hf p.w ps x0 x1 x2 x3 x4 ch (p.w - 1 - dg) x dg c d (by omega)
    simp only [pkFromSigLoop, Adrs.setChain, h1, List.zipIdx_cons, List.map_cons,
      ih (fun y hy => hx y (by simp [hy]))]

/-- Signing then completing the chains is generating the chains. -/
theorem chains_complete (S : Sha256) (hf : HashFn) (p : WotsParams) (ps : Bytes) (x0 x1 x2 x3 x4 : Nat) :
    ∀ (xs : List Bytes) (ds : List Nat) (ch : Nat), xs.length = ds.length → (∀ d ∈ ds, d < p.w) →
      (((((xs.zip ds).zipIdx ch).map fun (x, k) => chainAt S hf ps x0 x1 x2 x3 x4 k 0 x.2 x.1).zip ds).zipIdx ch).map
        (fun (x, k) => chainAt S hf ps x0 x1 x2 x3 x4 k x.2 (p.w - 1 - x.2) x.1) =
      (xs.zipIdx ch).map fun (x, k) => chainAt S hf ps x0 x1 x2 x3 x4 k 0 (p.w - 1) x
  | [], [], _, _, _ => rfl
  | x :: xs, d :: ds, ch, hl, hd => by
    have hlt : d < p.w := hd d (by simp)
    have ih := chains_complete S hf p ps x0 x1 x2 x3 x4 xs ds (ch + 1) (by simpa using hl) fun d hd' => hd d (by simp [hd'])
    simp only [List.zip_cons_cons, List.zipIdx_cons, List.map_cons] at ih ⊢
    rw [ih]
    have := chainAt_add S hf ps x0 x1 x2 x3 x4 ch d (p.w - 1 - d) 0 x
    rw [Nat.zero_add, show d + (p.w - 1 - d) = p.w - 1 by omega] at this
    rw [this]
  | [], _ :: _, _, hl, _ => by simp at hl
  | _ :: _, [], _, hl, _ => by simp at hl

theorem length_expandSeed (S : Sha256) (hf : HashFn) (key : Bytes) (len : Nat) :
    (expandSeed S hf key len).length = len := by simp [expandSeed_eq]

end Qrl
