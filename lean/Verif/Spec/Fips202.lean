import Verif.Model.Basic
/-!
# Specification: FIPS 202 (SHA-3 standard), SHAKE128 and SHAKE256, at bit level

Section numbers are those of FIPS 202. Nothing here refers to the model of the code except the type of byte strings.
-/

namespace Qrl.Spec.Fips202

/-- A state array `A[x, y, z]` of Keccak-p[1600] (3.1.1). Indices are taken modulo 5 and modulo w = 64, as `Fin` does. -/
abbrev StateArray := Fin 5 → Fin 5 → Fin 64 → Bool

/-- 3.1.2: `A[x, y, z] = S[w(5y + x) + z]`. -/
def toArray (S : List Bool) : StateArray := fun x y z => S.getD (64 * (5 * y.val + x.val) + z.val) false

/-- 3.1.3: from state arrays back to strings. -/
def toString (A : StateArray) : List Bool :=
  (List.finRange 5).flatMap fun y => (List.finRange 5).flatMap fun x => (List.finRange 64).map fun z => A x y z

/-- 3.2.1, the column parities. -/
def C (A : StateArray) (x : Fin 5) (z : Fin 64) : Bool := A x 0 z ^^ A x 1 z ^^ A x 2 z ^^ A x 3 z ^^ A x 4 z

/-- 3.2.1. -/
def theta (A : StateArray) : StateArray := fun x y z => A x y z ^^ (C A (x - 1) z ^^ C A (x + 1) (z - 1))

/-- 3.2.2, step 3: the loop over `t` with the current `(x, y)`; `m` iterations are left. -/
def rhoLoop (A : StateArray) : Nat → Nat → Fin 5 → Fin 5 → StateArray → StateArray
  | 0, _, _, _, A' => A'
  | m + 1, t, x, y, A' =>
    rhoLoop A m (t + 1) y (2 * x + 3 * y) fun x' y' z =>
      if x' = x ∧ y' = y then A x y (z - Fin.ofNat 64 ((t + 1) * (t + 2) / 2)) else A' x' y' z

/-- 3.2.2. -/
def rho (A : StateArray) : StateArray := rhoLoop A 24 0 1 0 A

/-- 3.2.3. -/
def pi (A : StateArray) : StateArray := fun x y z => A (x + 3 * y) x z

/-- 3.2.4. -/
def chi (A : StateArray) : StateArray := fun x y z => A x y z ^^ ((A (x + 1) y z ^^ true) && A (x + 2) y z)

/-- 3.2.5, Algorithm 5, step 3: one pass of the loop on the 8 bits of `R`. -/
def lfsr : List Bool → List Bool
  | [r0, r1, r2, r3, r4, r5, r6, r7] => [false ^^ r7, r0, r1, r2, r3 ^^ r7, r4 ^^ r7, r5 ^^ r7, r6]
  | R => R

/-- 3.2.5, Algorithm 5. -/
def rc (t : Nat) : Bool :=
  if t % 255 = 0 then true
  else (Nat.repeat lfsr (t % 255) [true, false, false, false, false, false, false, false]).headD false

/-- 3.2.5, Algorithm 6, steps 2 and 3: `RC[2^j - 1] = rc(j + 7 i_r)` for `j = 0 … 6`, the other bits are 0. -/
def RC (ir : Nat) (z : Fin 64) : Bool := (List.range 7).any fun j => z.val == 2 ^ j - 1 && rc (j + 7 * ir)

/-- 3.2.5. -/
def iota (ir : Nat) (A : StateArray) : StateArray := fun x y z =>
  if x = 0 ∧ y = 0 then A x y z ^^ RC ir z else A x y z

/-- 3.3. -/
def Rnd (A : StateArray) (ir : Nat) : StateArray := iota ir (chi (pi (rho (theta A))))

/-- 3.3 and 3.4: Keccak-f[1600] = Keccak-p[1600, 24]. -/
def keccakF (S : List Bool) : List Bool := toString ((List.range 24).foldl Rnd (toArray S))

/-- 5.1, Algorithm 9: `pad10*1(x, m)`. -/
def pad101 (x m : Nat) : List Bool := true :: (List.replicate ((-(m : Int) - 2) % x).toNat false ++ [true])

/-- Bit-wise exclusive or of strings of the same length. -/
def xorBits (a b : List Bool) : List Bool := List.zipWith (· ^^ ·) a b

/-- 4, Algorithm 8, steps 8 to 10: `d` bits from the state `S`. -/
def squeeze (f : List Bool → List Bool) (r : Nat) (S : List Bool) (d : Nat) : List Bool :=
  if _h : 0 < r ∧ r < d then S.take r ++ squeeze f r (f S) (d - r) else S.take d
termination_by d

/-- 4, Algorithm 8: SPONGE[f, pad, r](N, d) with width `b`. -/
def sponge (f : List Bool → List Bool) (pad : Nat → Nat → List Bool) (b r : Nat) (N : List Bool) (d : Nat) : List Bool :=
  let P := N ++ pad r N.length
  let n := P.length / r
  let S := (List.range n).foldl
    (fun S i => f (xorBits S ((P.drop (r * i)).take r ++ List.replicate (b - r) false))) (List.replicate b false)
  squeeze f r S d

/-- 5.2: KECCAK[c](N, d). -/
def KECCAK (c : Nat) (N : List Bool) (d : Nat) : List Bool := sponge keccakF pad101 1600 (1600 - c) N d

/-- 6.2. -/
def SHAKE128 (M : List Bool) (d : Nat) : List Bool := KECCAK 256 (M ++ [true, true, true, true]) d
/-- 6.2. -/
def SHAKE256 (M : List Bool) (d : Nat) : List Bool := KECCAK 512 (M ++ [true, true, true, true]) d

/-- B.1: the bits of a byte string, least significant bit of each byte first. -/
def bits (m : Bytes) : List Bool := m.flatMap fun b => (List.range 8).map b.toNat.testBit

end Qrl.Spec.Fips202
