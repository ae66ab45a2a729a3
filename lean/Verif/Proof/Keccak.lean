import Verif.Spec.Fips202
import Verif.Proof.Shake
/-!
# The unrolled permutation is Keccak-f[1600]
-/

namespace Qrl

open Spec.Fips202

/-- Bit `z` of a lane. -/
def bit (a : UInt64) (z : Fin 64) : Bool := a.toNat.testBit z.val

theorem bit_xor (a b : UInt64) (z : Fin 64) : bit (a ^^^ b) z = (bit a z ^^ bit b z) := by
  simp [bit, UInt64.toNat_xor]

theorem bit_and (a b : UInt64) (z : Fin 64) : bit (a &&& b) z = (bit a z && bit b z) := by
  simp [bit, UInt64.toNat_and]

theorem bit_not (a : UInt64) (z : Fin 64) : bit (~~~a) z = (bit a z ^^ true) := by
  have h : (~~~a).toNat = 2 ^ 64 - (a.toNat + 1) := by
    rw [UInt64.toNat_not]; have := a.toNat_lt; simp [UInt64.size] at *
  rw [bit, h, Nat.testBit_two_pow_sub_succ a.toNat_lt]
  have := z.isLt
  simp [bit, this]

theorem bit_rol (a : UInt64) (k : Nat) (h0 : 0 < k) (h64 : k < 64) (z : Fin 64) :
    bit (rol a (UInt64.ofNat k)) z = bit a (z - Fin.ofNat 64 k) := by
  have hk : (UInt64.ofNat k).toNat = k := by rw [UInt64.toNat_ofNat']; omega
  have hk2 : (64 - UInt64.ofNat k).toNat = 64 - k := by
    rw [UInt64.toNat_sub_of_le _ _ (by rw [UInt64.le_iff_toNat_le, hk]; simp; omega), hk]; rfl
  have ha := a.toNat_lt
  have hz := z.isLt
  simp only [bit, rol, UInt64.toNat_xor, UInt64.toNat_shiftLeft, UInt64.toNat_shiftRight, hk, hk2, Nat.testBit_xor,
    Nat.mod_eq_of_lt h64, Nat.mod_eq_of_lt (show 64 - k < 64 by omega), Nat.testBit_mod_two_pow, Nat.testBit_shiftLeft,
    Nat.testBit_shiftRight, hz, decide_true, Bool.true_and]
  have hs : (z - Fin.ofNat 64 k).val = (64 - k + z.val) % 64 := by
    rw [Fin.sub_def]; simp [Fin.ofNat, Nat.mod_eq_of_lt h64]
  rw [hs]
  by_cases h : k ≤ z.val
  · have e : (64 - k + z.val) % 64 = z.val - k := by omega
    rw [e, Nat.testBit_lt_two_pow (i := 64 - k + z.val)]
    · simp [h]
    · exact Nat.lt_of_lt_of_le ha (Nat.pow_le_pow_right (by omega) (by omega))
  · have e : (64 - k + z.val) % 64 = 64 - k + z.val := by omega
    rw [e]
    simp [h]

theorem fin_sub_zero (z : Fin 64) : z - 0 = z := by
  apply Fin.ext
  have := z.isLt
  simp [Fin.sub_def]

/-- One half of `twoRounds`. -/
def oneRound (rc0 : UInt64) (s : Lanes) : Lanes :=
  let Aba := s.Aba
  let Abe := s.Abe
  let Abi := s.Abi
  let Abo := s.Abo
  let Abu := s.Abu
  let Aga := s.Aga
  let Age := s.Age
  let Agi := s.Agi
  let Ago := s.Ago
  let Agu := s.Agu
  let Aka := s.Aka
  let Ake := s.Ake
  let Aki := s.Aki
  let Ako := s.Ako
  let Aku := s.Aku
  let Ama := s.Ama
  let Ame := s.Ame
  let Ami := s.Ami
  let Amo := s.Amo
  let Amu := s.Amu
  let Asa := s.Asa
  let Ase := s.Ase
  let Asi := s.Asi
  let Aso := s.Aso
  let Asu := s.Asu
  -- prepareTheta
  let BCa := Aba ^^^ Aga ^^^ Aka ^^^ Ama ^^^ Asa
  let BCe := Abe ^^^ Age ^^^ Ake ^^^ Ame ^^^ Ase
  let BCi := Abi ^^^ Agi ^^^ Aki ^^^ Ami ^^^ Asi
  let BCo := Abo ^^^ Ago ^^^ Ako ^^^ Amo ^^^ Aso
  let BCu := Abu ^^^ Agu ^^^ Aku ^^^ Amu ^^^ Asu
  -- thetaRhoPiChiIotaPrepareTheta(round  , A, E)
  let Da := BCu ^^^ (rol BCe 1)
  let De := BCa ^^^ (rol BCi 1)
  let Di := BCe ^^^ (rol BCo 1)
  let Do := BCi ^^^ (rol BCu 1)
  let Du := BCo ^^^ (rol BCa 1)
  let Aba := Aba ^^^ Da
  let BCa := Aba
  let Age := Age ^^^ De
  let BCe := rol Age 44
  let Aki := Aki ^^^ Di
  let BCi := rol Aki 43
  let Amo := Amo ^^^ Do
  let BCo := rol Amo 21
  let Asu := Asu ^^^ Du
  let BCu := rol Asu 14
  let Eba := BCa ^^^ ((~~~BCe) &&& BCi)
  let Eba := Eba ^^^ rc0
  let Ebe := BCe ^^^ ((~~~BCi) &&& BCo)
  let Ebi := BCi ^^^ ((~~~BCo) &&& BCu)
  let Ebo := BCo ^^^ ((~~~BCu) &&& BCa)
  let Ebu := BCu ^^^ ((~~~BCa) &&& BCe)
  let Abo := Abo ^^^ Do
  let BCa := rol Abo 28
  let Agu := Agu ^^^ Du
  let BCe := rol Agu 20
  let Aka := Aka ^^^ Da
  let BCi := rol Aka 3
  let Ame := Ame ^^^ De
  let BCo := rol Ame 45
  let Asi := Asi ^^^ Di
  let BCu := rol Asi 61
  let Ega := BCa ^^^ ((~~~BCe) &&& BCi)
  let Ege := BCe ^^^ ((~~~BCi) &&& BCo)
  let Egi := BCi ^^^ ((~~~BCo) &&& BCu)
  let Ego := BCo ^^^ ((~~~BCu) &&& BCa)
  let Egu := BCu ^^^ ((~~~BCa) &&& BCe)
  let Abe := Abe ^^^ De
  let BCa := rol Abe 1
  let Agi := Agi ^^^ Di
  let BCe := rol Agi 6
  let Ako := Ako ^^^ Do
  let BCi := rol Ako 25
  let Amu := Amu ^^^ Du
  let BCo := rol Amu 8
  let Asa := Asa ^^^ Da
  let BCu := rol Asa 18
  let Eka := BCa ^^^ ((~~~BCe) &&& BCi)
  let Eke := BCe ^^^ ((~~~BCi) &&& BCo)
  let Eki := BCi ^^^ ((~~~BCo) &&& BCu)
  let Eko := BCo ^^^ ((~~~BCu) &&& BCa)
  let Eku := BCu ^^^ ((~~~BCa) &&& BCe)
  let Abu := Abu ^^^ Du
  let BCa := rol Abu 27
  let Aga := Aga ^^^ Da
  let BCe := rol Aga 36
  let Ake := Ake ^^^ De
  let BCi := rol Ake 10
  let Ami := Ami ^^^ Di
  let BCo := rol Ami 15
  let Aso := Aso ^^^ Do
  let BCu := rol Aso 56
  let Ema := BCa ^^^ ((~~~BCe) &&& BCi)
  let Eme := BCe ^^^ ((~~~BCi) &&& BCo)
  let Emi := BCi ^^^ ((~~~BCo) &&& BCu)
  let Emo := BCo ^^^ ((~~~BCu) &&& BCa)
  let Emu := BCu ^^^ ((~~~BCa) &&& BCe)
  let Abi := Abi ^^^ Di
  let BCa := rol Abi 62
  let Ago := Ago ^^^ Do
  let BCe := rol Ago 55
  let Aku := Aku ^^^ Du
  let BCi := rol Aku 39
  let Ama := Ama ^^^ Da
  let BCo := rol Ama 41
  let Ase := Ase ^^^ De
  let BCu := rol Ase 2
  let Esa := BCa ^^^ ((~~~BCe) &&& BCi)
  let Ese := BCe ^^^ ((~~~BCi) &&& BCo)
  let Esi := BCi ^^^ ((~~~BCo) &&& BCu)
  let Eso := BCo ^^^ ((~~~BCu) &&& BCa)
  let Esu := BCu ^^^ ((~~~BCa) &&& BCe)
  ⟨Eba, Ebe, Ebi, Ebo, Ebu, Ega, Ege, Egi, Ego, Egu, Eka, Eke, Eki, Eko, Eku, Ema, Eme, Emi, Emo, Emu, Esa, Ese, Esi, Eso, Esu⟩

theorem twoRounds_eq (rc0 rc1 : UInt64) (s : Lanes) : twoRounds rc0 rc1 s = oneRound rc1 (oneRound rc0 s) := rfl

/-- The lanes as a state array. -/
def Lanes.lane (s : Lanes) : Fin 5 → Fin 5 → UInt64
  | 0, 0 => s.Aba
  | 1, 0 => s.Abe
  | 2, 0 => s.Abi
  | 3, 0 => s.Abo
  | 4, 0 => s.Abu
  | 0, 1 => s.Aga
  | 1, 1 => s.Age
  | 2, 1 => s.Agi
  | 3, 1 => s.Ago
  | 4, 1 => s.Agu
  | 0, 2 => s.Aka
  | 1, 2 => s.Ake
  | 2, 2 => s.Aki
  | 3, 2 => s.Ako
  | 4, 2 => s.Aku
  | 0, 3 => s.Ama
  | 1, 3 => s.Ame
  | 2, 3 => s.Ami
  | 3, 3 => s.Amo
  | 4, 3 => s.Amu
  | 0, 4 => s.Asa
  | 1, 4 => s.Ase
  | 2, 4 => s.Asi
  | 3, 4 => s.Aso
  | 4, 4 => s.Asu

def Lanes.arr (s : Lanes) : StateArray := fun x y z => bit (s.lane x y) z

/-- The offsets of ρ. -/
def rhoOff : Fin 5 → Fin 5 → Nat
  | 0, 0 => 0
  | 1, 0 => 1
  | 2, 0 => 62
  | 3, 0 => 28
  | 4, 0 => 27
  | 0, 1 => 36
  | 1, 1 => 44
  | 2, 1 => 6
  | 3, 1 => 55
  | 4, 1 => 20
  | 0, 2 => 3
  | 1, 2 => 10
  | 2, 2 => 43
  | 3, 2 => 25
  | 4, 2 => 39
  | 0, 3 => 41
  | 1, 3 => 45
  | 2, 3 => 15
  | 3, 3 => 21
  | 4, 3 => 8
  | 0, 4 => 18
  | 1, 4 => 2
  | 2, 4 => 61
  | 3, 4 => 56
  | 4, 4 => 14

theorem rho_eq (A : StateArray) (x y : Fin 5) (z : Fin 64) : rho A x y z = A x y (z - Fin.ofNat 64 (rhoOff x y)) := by
  match x, y with
  | 0, 0 =>
    have h : z - Fin.ofNat 64 (rhoOff 0 0) = z := fin_sub_zero z
    rw [h]; rfl
  | 1, 0 => rfl
  | 2, 0 => rfl
  | 3, 0 => rfl
  | 4, 0 => rfl
  | 0, 1 => rfl
  | 1, 1 => rfl
  | 2, 1 => rfl
  | 3, 1 => rfl
  | 4, 1 => rfl
  | 0, 2 => rfl
  | 1, 2 => rfl
  | 2, 2 => rfl
  | 3, 2 => rfl
  | 4, 2 => rfl
  | 0, 3 => rfl
  | 1, 3 => rfl
  | 2, 3 => rfl
  | 3, 3 => rfl
  | 4, 3 => rfl
  | 0, 4 => rfl
  | 1, 4 => rfl
  | 2, 4 => rfl
  | 3, 4 => rfl
  | 4, 4 => rfl

/-- θ, ρ and π on lanes. -/
def colParity (s : Lanes) (x : Fin 5) : UInt64 := s.lane x 0 ^^^ s.lane x 1 ^^^ s.lane x 2 ^^^ s.lane x 3 ^^^ s.lane x 4

def thetaLane (s : Lanes) (x y : Fin 5) : UInt64 :=
  s.lane x y ^^^ (colParity s (x - 1) ^^^ rol (colParity s (x + 1)) (UInt64.ofNat 1))

def rolN (a : UInt64) (k : Nat) : UInt64 := if k = 0 then a else rol a (UInt64.ofNat k)

def piLane (s : Lanes) (x y : Fin 5) : UInt64 := rolN (thetaLane s (x + 3 * y) x) (rhoOff (x + 3 * y) x)

theorem oneRound_lane (rc0 : UInt64) (s : Lanes) (x y : Fin 5) : (oneRound rc0 s).lane x y =
    if x = 0 ∧ y = 0 then (piLane s x y ^^^ (~~~ (piLane s (x + 1) y) &&& piLane s (x + 2) y)) ^^^ rc0
    else piLane s x y ^^^ (~~~ (piLane s (x + 1) y) &&& piLane s (x + 2) y) := by
  match x, y with
  | 0, 0 => rfl
  | 1, 0 => rfl
  | 2, 0 => rfl
  | 3, 0 => rfl
  | 4, 0 => rfl
  | 0, 1 => rfl
  | 1, 1 => rfl
  | 2, 1 => rfl
  | 3, 1 => rfl
  | 4, 1 => rfl
  | 0, 2 => rfl
  | 1, 2 => rfl
  | 2, 2 => rfl
  | 3, 2 => rfl
  | 4, 2 => rfl
  | 0, 3 => rfl
  | 1, 3 => rfl
  | 2, 3 => rfl
  | 3, 3 => rfl
  | 4, 3 => rfl
  | 0, 4 => rfl
  | 1, 4 => rfl
  | 2, 4 => rfl
  | 3, 4 => rfl
  | 4, 4 => rfl

theorem bit_colParity (s : Lanes) (x : Fin 5) (z : Fin 64) : bit (colParity s x) z = C s.arr x z := by
  simp only [colParity, bit_xor, C, Lanes.arr]

theorem bit_thetaLane (s : Lanes) (x y : Fin 5) (z : Fin 64) : bit (thetaLane s x y) z = theta s.arr x y z := by
  rw [thetaLane, bit_xor, bit_xor, bit_rol _ 1 (by omega) (by omega), bit_colParity, bit_colParity]
  rfl

theorem rhoOff_lt (x y : Fin 5) : rhoOff x y < 64 := by revert x y; decide

theorem bit_rolN (a : UInt64) (k : Nat) (h : k < 64) (z : Fin 64) : bit (rolN a k) z = bit a (z - Fin.ofNat 64 k) := by
  rw [rolN]
  split
  · rename_i h0
    subst h0
    rw [show z - Fin.ofNat 64 0 = z from fin_sub_zero z]
  · exact bit_rol _ _ (by omega) h _

theorem bit_piLane (s : Lanes) (x y : Fin 5) (z : Fin 64) : bit (piLane s x y) z = pi (rho (theta s.arr)) x y z := by
  rw [piLane, bit_rolN _ _ (rhoOff_lt _ _), bit_thetaLane, pi, rho_eq]

theorem oneRound_arr (rc0 : UInt64) (ir : Nat) (hrc : ∀ z, bit rc0 z = RC ir z) (s : Lanes) :
    (oneRound rc0 s).arr = Rnd s.arr ir := by
  funext x y z
  rw [Lanes.arr, oneRound_lane, Rnd, iota]
  split
  · rw [bit_xor, bit_xor, bit_and, bit_not, bit_piLane, bit_piLane, bit_piLane, hrc]
    rfl
  · rw [bit_xor, bit_and, bit_not, bit_piLane, bit_piLane, bit_piLane]
    rfl

theorem RC_table : ∀ ir : Fin 24, ∀ z : Fin 64, bit (roundConstants.getD ir.val 0) z = RC ir.val z := by
  unfold bit
  decide +kernel

/-- The permutation on lanes. -/
theorem roundLoop_arr (s : Lanes) : (roundLoop roundConstants s).arr = (List.range 24).foldl Rnd s.arr := by
  have R : ∀ (ir : Fin 24) (s : Lanes), (oneRound (roundConstants.getD ir.val 0) s).arr = Rnd s.arr ir.val :=
    fun ir s => oneRound_arr _ _ (RC_table ir) s
  have e : roundLoop roundConstants s = (List.finRange 24).foldl (fun s ir => oneRound (roundConstants.getD ir.val 0) s) s := by
    rfl
  rw [e]
  have g : ∀ (l : List (Fin 24)) (s : Lanes), (l.foldl (fun s ir => oneRound (roundConstants.getD ir.val 0) s) s).arr =
      (l.map Fin.val).foldl Rnd s.arr := by
    intro l
    induction l with
    | nil => intro s; rfl
    | cons a l ih => intro s; rw [List.foldl_cons, ih, R]; rfl
  rw [g]
  congr 1

end Qrl
