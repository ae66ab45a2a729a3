import Verif.Model.Basic

/-!
# SHA-256 (FIPS 180-4)

The C++ library takes SHA-256 from `deps/shasha` (picosha2 style) and the Rust port from the `sha2`
crate; neither is in the repository, and every theorem quantifies over an arbitrary `S : Sha256`.
This file gives one concrete instance, the standard's own function, so that the model can be run on
the repository's test vectors (see `Verif/Props/Vectors.lean` and `/verif/validation`) and so that
the theorems have a realistic instance. Nothing else depends on it.
-/

namespace Qrl.Fips180

/-- FIPS 180-4, 4.2.2: the sixty-four round constants. -/
def k : List UInt32 := [
  0x428a2f98, 0x71374491, 0xb5c0fbcf, 0xe9b5dba5, 0x3956c25b, 0x59f111f1, 0x923f82a4, 0xab1c5ed5,
  0xd807aa98, 0x12835b01, 0x243185be, 0x550c7dc3, 0x72be5d74, 0x80deb1fe, 0x9bdc06a7, 0xc19bf174,
  0xe49b69c1, 0xefbe4786, 0x0fc19dc6, 0x240ca1cc, 0x2de92c6f, 0x4a7484aa, 0x5cb0a9dc, 0x76f988da,
  0x983e5152, 0xa831c66d, 0xb00327c8, 0xbf597fc7, 0xc6e00bf3, 0xd5a79147, 0x06ca6351, 0x14292967,
  0x27b70a85, 0x2e1b2138, 0x4d2c6dfc, 0x53380d13, 0x650a7354, 0x766a0abb, 0x81c2c92e, 0x92722c85,
  0xa2bfe8a1, 0xa81a664b, 0xc24b8b70, 0xc76c51a3, 0xd192e819, 0xd6990624, 0xf40e3585, 0x106aa070,
  0x19a4c116, 0x1e376c08, 0x2748774c, 0x34b0bcb5, 0x391c0cb3, 0x4ed8aa4a, 0x5b9cca4f, 0x682e6ff3,
  0x748f82ee, 0x78a5636f, 0x84c87814, 0x8cc70208, 0x90befffa, 0xa4506ceb, 0xbef9a3f7, 0xc67178f2]

/-- FIPS 180-4, 3.2: rotate right. -/
def rotr (x : UInt32) (n : UInt32) : UInt32 := (x >>> n) ||| (x <<< (32 - n))

/-- The working variables / hash value `a … h`. -/
structure H where
  (a b c d e f g h : UInt32)

/-- FIPS 180-4, 5.3.3: the initial hash value. -/
def init : H :=
  ⟨0x6a09e667, 0xbb67ae85, 0x3c6ef372, 0xa54ff53a, 0x510e527f, 0x9b05688c, 0x1f83d9ab, 0x5be0cd19⟩

/-- FIPS 180-4, 6.2.2 step 3: one round. -/
def round (s : H) (kw : UInt32) : H :=
  let S1 := rotr s.e 6 ^^^ rotr s.e 11 ^^^ rotr s.e 25
  let ch := (s.e &&& s.f) ^^^ (~~~s.e &&& s.g)
  let t1 := s.h + S1 + ch + kw
  let S0 := rotr s.a 2 ^^^ rotr s.a 13 ^^^ rotr s.a 22
  let maj := (s.a &&& s.b) ^^^ (s.a &&& s.c) ^^^ (s.b &&& s.c)
  ⟨t1 + (S0 + maj), s.a, s.b, s.c, s.d + t1, s.e, s.f, s.g⟩

/-- FIPS 180-4, 6.2.2 steps 1 and 3 together: the schedule is kept as the window of the next
sixteen words. -/
def rounds : List UInt32 → List UInt32 → H → H
  | _, [], s => s
  | w, c :: cs, s =>
    match w with
    | [] => s
    | w0 :: ws =>
      let w1 := ws.getD 0 0
      let w9 := ws.getD 8 0
      let w14 := ws.getD 13 0
      let s0 := rotr w1 7 ^^^ rotr w1 18 ^^^ (w1 >>> 3)
      let s1 := rotr w14 17 ^^^ rotr w14 19 ^^^ (w14 >>> 10)
      rounds (ws ++ [s1 + w9 + s0 + w0]) cs (round s (c + w0))

/-- FIPS 180-4, 6.2.2 step 4: add the compressed block to the hash value. -/
def compress (hv : H) (w : List UInt32) : H :=
  let r := rounds w k hv
  ⟨hv.a + r.a, hv.b + r.b, hv.c + r.c, hv.d + r.d, hv.e + r.e, hv.f + r.f, hv.g + r.g, hv.h + r.h⟩

/-- Big-endian 32-bit words of a byte string. -/
def words : Bytes → List UInt32
  | a :: b :: c :: d :: rest =>
    ((a.toUInt32 <<< 24) ||| (b.toUInt32 <<< 16) ||| (c.toUInt32 <<< 8) ||| d.toUInt32) :: words rest
  | _ => []

/-- All blocks of a padded message (fuel: the number of blocks). -/
def blocks : Nat → List UInt32 → H → H
  | 0, _, hv => hv
  | n + 1, w, hv => blocks n (w.drop 16) (compress hv (w.take 16))

/-- Big-endian bytes of a word. -/
def be (x : UInt32) : Bytes :=
  [(x >>> 24).toUInt8, (x >>> 16).toUInt8, (x >>> 8).toUInt8, x.toUInt8]

/-- FIPS 180-4, 5.1.1: a one bit, zeros, and the length in bits as a 64-bit big-endian number. -/
def pad (m : Bytes) : Bytes :=
  let z := (119 - m.length % 64) % 64
  m ++ 0x80 :: List.replicate z 0 ++
    be (UInt32.ofNat (8 * m.length / 2 ^ 32)) ++ be (UInt32.ofNat (8 * m.length))

/-- FIPS 180-4, 6.2: SHA-256 of a byte string. -/
def sha256 (m : Bytes) : Bytes :=
  let p := words (pad m)
  let r := blocks (p.length / 16) p init
  be r.a ++ be r.b ++ be r.c ++ be r.d ++ be r.e ++ be r.f ++ be r.g ++ be r.h

/-- The instance. -/
def sha : Sha256 := ⟨sha256, fun m => by simp [sha256, be]⟩

end Qrl.Fips180
