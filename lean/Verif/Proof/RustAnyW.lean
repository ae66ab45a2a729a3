import Verif.Proof.RustVerify
import Verif.Proof.AnyW
import Verif.Spec.RustAny
/-!
# Chain positions in Rust for every Winternitz parameter below 2^16
-/

namespace Qrl.Rs

open Res

/-- `u32` subtraction without overflow checks. -/
theorem u32sub_release (x y : Nat) (hx : x < 2 ^ 32) (hy : y < 2 ^ 32) :
    u32sub .release x y = ok ((x + 2 ^ 32 - y) % 2 ^ 32) := by
  rw [u32sub.eq_def]
  by_cases h : y ≤ x
  · rw [if_pos h, show x + 2 ^ 32 - y = x - y + 2 ^ 32 by omega, Nat.add_mod_right, Nat.mod_eq_of_lt (by omega)]
  · rw [if_neg h]
    dsimp only
    rw [Nat.mod_eq_of_lt hy]

theorem shr8_release (t n : Nat) : shr8 .release t n = ok (t / 2 ^ (n % 8)) := by
  rw [shr8.eq_def]
  by_cases h : n < 8
  · rw [if_pos h, Nat.shiftRight_eq_div_pow, Nat.mod_eq_of_lt h]
  · rw [if_neg h]
    dsimp only
    rw [Nat.shiftRight_eq_div_pow]

/-- Without overflow checks, once the byte `t` has been read and `j` positions been cut out of it. -/
theorem baseWLoop_stuck (p : WotsParams) (hL : 8 % p.logW ≠ 0) (inp : Bytes) (t : Nat) : ∀ (k j : Nat),
    p.logW * (j + k) < 2 ^ 32 →
    baseWLoop .release p inp t ((8 + 2 ^ 32 - p.logW * j) % 2 ^ 32) k =
      ok ((List.range' j k).map fun i => (t / 2 ^ ((8 - p.logW * (i + 1) % 8) % 8)) &&& (p.w - 1)) := by
  intro k
  induction k with
  | zero => intro j _; rfl
  | succ k ih =>
    intro j hj
    rw [baseWLoop.eq_def]
    dsimp only
    have hmul : p.logW * (j + (k + 1)) = p.logW * j + p.logW + p.logW * k := by
      rw [Nat.mul_add, Nat.mul_add, Nat.mul_one]; omega
    have hne : p.logW * j ≠ 8 := by
      intro h
      apply hL
      rw [← h, Nat.mul_mod_right]
    have h0 : (8 + 2 ^ 32 - p.logW * j) % 2 ^ 32 ≠ 0 := by omega
    rw [if_neg h0]
    rw [ok_bind]
    dsimp only
    rw [u32sub_release _ _ (Nat.mod_lt _ (by omega)) (by omega), ok_bind, shr8_release, ok_bind]
    have hstep : ((8 + 2 ^ 32 - p.logW * j) % 2 ^ 32 + 2 ^ 32 - p.logW) % 2 ^ 32 =
        (8 + 2 ^ 32 - p.logW * (j + 1)) % 2 ^ 32 := by
      rw [Nat.mul_add, Nat.mul_one]
      generalize p.logW * j = y at *
      omega
    rw [hstep, ih (j + 1) (by rw [show j + 1 + k = j + (k + 1) by omega]; exact hj), ok_bind, List.range'_succ, List.map_cons]
    have hmod : (8 + 2 ^ 32 - p.logW * (j + 1)) % 2 ^ 32 % 8 = (8 - p.logW * (j + 1) % 8) % 8 := by
      have : p.logW * (j + 1) < 2 ^ 32 := by rw [Nat.mul_add, Nat.mul_one]; omega
      generalize p.logW * (j + 1) = y at *
      omega
    rw [hmod]

theorem baseW_stuck (p : WotsParams) (hL : 8 % p.logW ≠ 0) (k : Nat) (hk : p.logW * k < 2 ^ 32) (x : UInt8) (rest : Bytes) :
    baseW .release p k (x :: rest) =
      ok ((List.range k).map fun i => (x.toNat / 2 ^ ((8 - p.logW * (i + 1) % 8) % 8)) &&& (p.w - 1)) := by
  have h := baseWLoop_stuck p hL rest x.toNat k 0 (by rw [Nat.zero_add]; exact hk)
  rw [show (8 + 2 ^ 32 - p.logW * 0) % 2 ^ 32 = 8 by omega] at h
  rw [List.range_eq_range', ← h, baseW]
  cases k with
  | zero => rfl
  | succ k =>
    rw [baseWLoop.eq_def, baseWLoop.eq_def .release p rest]
    rfl

/-- With overflow checks. -/
theorem baseWLoop_debug (p : WotsParams) (hL : p.logW ≠ 0) (inp : Bytes) (t : Nat) : ∀ (k bits : Nat), bits ≤ 8 →
    bits % p.logW ≠ 0 → bits / p.logW < k → baseWLoop .debug p inp t bits k = panic := by
  intro k
  induction k with
  | zero => intro bits _ _ h; cases h
  | succ k ih =>
    intro bits hb hm hk
    rw [baseWLoop.eq_def]
    dsimp only
    have h0 : bits ≠ 0 := by rintro rfl; exact hm (Nat.zero_mod _)
    rw [if_neg h0]
    rw [ok_bind]
    dsimp only
    rw [u32sub.eq_def]
    by_cases hc : p.logW ≤ bits
    · rw [if_pos hc, ok_bind, shr8.eq_def, if_pos (by omega), ok_bind, ih (bits - p.logW) (by omega)]
      · rfl
      · rwa [← Nat.mod_eq_sub_mod hc]
      · rw [Nat.div_eq_sub_div (by omega) hc] at hk; omega
    · rw [if_neg hc]; rfl

theorem baseW_debug (p : WotsParams) (hL : 8 % p.logW ≠ 0) (h0 : p.logW ≠ 0) (k : Nat) (hk : 8 / p.logW < k) (x : UInt8)
    (rest : Bytes) : baseW .debug p k (x :: rest) = panic := by
  obtain ⟨k, rfl⟩ : ∃ k', k = k' + 1 := ⟨k - 1, by
    have := Nat.zero_le (8 / p.logW)
    generalize 8 / p.logW = y at *
    omega⟩
  have h := baseWLoop_debug p h0 rest x.toNat (k + 1) 8 (by omega) hL hk
  rw [baseW, ← h, baseWLoop.eq_def, baseWLoop.eq_def .debug p rest]
  rfl

theorem verifyDigits_rs (b : Build) (p : WotsParams) (m : Bytes) : verifyDigits b p m = signDigits b p m := rfl

/-- What is known of the parameters of any `w` in the modelled range. -/
theorem log_range {w : Nat} (h2 : 2 ≤ w) (h16 : w < 2 ^ 16) :
    1 ≤ Nat.log2 w ∧ Nat.log2 w ≤ 15 ∧ (Spec.UsableW w ↔ 8 % Nat.log2 w = 0) ∧ w < 2 ^ (Nat.log2 w + 1) := by
  have hw : w ≠ 0 := by omega
  have a := (Nat.le_log2 hw (k := 1)).mpr (by omega)
  have b := (Nat.log2_lt hw (k := 16)).mpr h16
  have e1 := Nat.log2_self_le hw
  have e2 := Nat.lt_log2_self (n := w)
  refine ⟨a, by omega, ?_, e2⟩
  rw [Spec.UsableW]
  generalize Nat.log2 w = L at *
  have hL : L = 1 ∨ L = 2 ∨ L = 3 ∨ L = 4 ∨ L = 5 ∨ L = 6 ∨ L = 7 ∨ L = 8 ∨ L = 9 ∨ L = 10 ∨ L = 11 ∨ L = 12 ∨ L = 13 ∨ L = 14 ∨
      L = 15 := by omega
  rcases hL with h | h | h | h | h | h | h | h | h | h | h | h | h | h | h <;> subst h <;> omega

theorem len1_range {L : Nat} (h1 : 1 ≤ L) (h15 : L ≤ 15) : (8 * 32 + L - 1) / L ≤ 256 ∧ 18 ≤ (8 * 32 + L - 1) / L := by
  have hL : L = 1 ∨ L = 2 ∨ L = 3 ∨ L = 4 ∨ L = 5 ∨ L = 6 ∨ L = 7 ∨ L = 8 ∨ L = 9 ∨ L = 10 ∨ L = 11 ∨ L = 12 ∨ L = 13 ∨ L = 14 ∨
      L = 15 := by omega
  rcases hL with h | h | h | h | h | h | h | h | h | h | h | h | h | h | h <;> subst h <;> omega

theorem len2_range {w : Nat} (h2 : 2 ≤ w) (h16 : w < 2 ^ 16) : 1 ≤ (wotsParams w).len2 ∧ (wotsParams w).len2 ≤ 25 := by
  obtain ⟨l1, l15, -, -⟩ := log_range h2 h16
  obtain ⟨a, b⟩ := len1_range l1 l15
  have hp : (8 * 32 + Nat.log2 w - 1) / Nat.log2 w * (w - 1) < 2 ^ 24 := by
    have := Nat.mul_le_mul a (show w - 1 ≤ 2 ^ 16 - 2 by omega)
    omega
  have hpos : (8 * 32 + Nat.log2 w - 1) / Nat.log2 w * (w - 1) ≠ 0 :=
    Nat.ne_of_gt (Nat.mul_pos (by omega) (by omega))
  have h24 := (Nat.log2_lt hpos (k := 24)).mpr hp
  show 1 ≤ Nat.log2 _ / Nat.log2 w + 1 ∧ Nat.log2 _ / Nat.log2 w + 1 ≤ 25
  have := Nat.div_le_self (Nat.log2 ((8 * 32 + Nat.log2 w - 1) / Nat.log2 w * (w - 1))) (Nat.log2 w)
  generalize Nat.log2 ((8 * 32 + Nat.log2 w - 1) / Nat.log2 w * (w - 1)) / Nat.log2 w = y at *
  omega

/-- For a usable `w` the parameters are those of C++. -/
theorem usable_params {w : Nat} (hw : Spec.UsableW w) : ∃ k q, AnyParams w (wotsParams w) k q := by
  obtain ⟨p, k, q, hp⟩ := anyParams hw
  have hpe : p = wotsParams w := by
    have hk : Nat.log2 w = k := hp.lg
    have e1 : (8 * 32 + k - 1) / k = 32 * q := by
      have hkq := hp.kq
      have : k = 1 ∨ k = 2 ∨ k = 4 ∨ k = 8 := by
        rcases usable_log hw with h | h | h | h <;> omega
      rcases this with rfl | rfl | rfl | rfl <;> omega
    have e2 := hp.l2
    rw [Spec.len2, hp.l1, hp.lg, hp.e1] at e2
    have f1 := hp.plen
    have f2 := hp.keysize
    have f3 := hp.e1
    have f4 := hp.pw
    have f5 := hp.logW
    cases p
    dsimp only at f1 f2 f3 f4 f5 e2
    subst f4 f5
    simp only [wotsParams, e1, hk, e2, WotsParams.mk.injEq]
    refine ⟨f3, trivial, ?_, trivial, trivial, ?_⟩ <;> omega
  exact ⟨k, q, hpe ▸ hp⟩

/-- The chain positions in Rust. -/
theorem signDigits_rs (b : Build) {w : Nat} (h2 : 2 ≤ w) (h16 : w < 2 ^ 16) (m : Bytes) (hm : m.length = 32) :
    signDigits b (wotsParams w) m =
      match Spec.rustPositions b w m with
      | some ds => ok ds
      | none => panic := by
  obtain ⟨l1, l15, hu, -⟩ := log_range h2 h16
  obtain ⟨a, a'⟩ := len1_range l1 l15
  rw [Spec.rustPositions.eq_def]
  by_cases hw : Spec.UsableW w
  · rw [if_pos hw]
    dsimp only
    obtain ⟨k, q, hp⟩ := usable_params hw
    exact signDigits_sim b _ (by rw [hp.logW, ← hp.lg]; exact l1) m _ (signDigits_any hp m hm)
  · rw [if_neg hw]
    have hL : 8 % Nat.log2 w ≠ 0 := fun h => hw (hu.mpr h)
    obtain ⟨x, rest, rfl⟩ : ∃ x rest, m = x :: rest := by
      cases m with
      | nil => cases hm
      | cons x rest => exact ⟨x, rest, rfl⟩
    cases b with
    | debug =>
      dsimp only
      have h8 := Nat.div_le_self 8 (Nat.log2 w)
      rw [signDigits, baseW_debug (wotsParams w) hL (show Nat.log2 w ≠ 0 by omega) _ (by
        show 8 / Nat.log2 w < (8 * 32 + Nat.log2 w - 1) / Nat.log2 w
        omega) x rest]
      rfl
    | release =>
      dsimp only
      obtain ⟨c, c'⟩ := len2_range h2 h16
      have hm1 : (wotsParams w).logW * (wotsParams w).len1 < 2 ^ 32 := by
        have := Nat.mul_le_mul (show (wotsParams w).logW ≤ 15 from l15) (show (wotsParams w).len1 ≤ 256 from a)
        omega
      have hm2 : (wotsParams w).logW * (wotsParams w).len2 < 2 ^ 32 := by
        have := Nat.mul_le_mul (show (wotsParams w).logW ≤ 15 from l15) c'
        omega
      have hlb : (wotsParams w).len2 * (wotsParams w).logW ≥ 1 := Nat.mul_pos c (show 0 < Nat.log2 w by omega)
      rw [signDigits, baseW_stuck (wotsParams w) hL _ hm1 x rest, ok_bind]
      dsimp only
      rw [checksum_rs, toByte_rs, toByte_eq_be]
      generalize hcs : Spec.be _ _ = cs
      have hcl : cs.length = ((wotsParams w).len2 * (wotsParams w).logW + 7) / 8 := by rw [← hcs, length_be]
      obtain ⟨y, r, rfl⟩ : ∃ y r, cs = y :: r := by
        cases cs with
        | nil => simp only [List.length_nil] at hcl; omega
        | cons y r => exact ⟨y, r, rfl⟩
      rw [baseW_stuck (wotsParams w) hL _ hm2 y r, ok_bind]
      rw [checksum_eq, Nat.shiftLeft_eq] at hcs
      congr 1
      rw [Spec.stuckPositions]
      have hms : Spec.oneByte w (Spec.rustLen1 w) ((x :: rest).headD 0) =
          (List.range (wotsParams w).len1).map fun i =>
            (x.toNat / 2 ^ ((8 - (wotsParams w).logW * (i + 1) % 8) % 8)) &&& ((wotsParams w).w - 1) := rfl
      rw [hms]
      have hcs' : Spec.be ((Spec.rustLen2 w * Spec.lgW w + 7) / 8)
          (((List.range (wotsParams w).len1).map fun i =>
            (x.toNat / 2 ^ ((8 - (wotsParams w).logW * (i + 1) % 8) % 8)) &&& ((wotsParams w).w - 1)).map
              (fun d => w - 1 - d) |>.sum |> (· * 2 ^ (8 - Spec.rustLen2 w * Spec.lgW w % 8))) = y :: r := hcs
      rw [show Spec.be ((Spec.rustLen2 w * Spec.lgW w + 7) / 8)
          ((((List.range (wotsParams w).len1).map fun i =>
            (x.toNat / 2 ^ ((8 - (wotsParams w).logW * (i + 1) % 8) % 8)) &&& ((wotsParams w).w - 1)).map
              (fun d => w - 1 - d)).sum * 2 ^ (8 - Spec.rustLen2 w * Spec.lgW w % 8)) = y :: r from hcs']
      rfl

end Qrl.Rs
