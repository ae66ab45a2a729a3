import Verif.Model.RustBasic
/-!
# src/rust_wrapper/xmss_alt/fips202.rs

The round body is a line-by-line transcription of the unrolled Rust code.
-/

namespace Qrl.Rs

/-- `rol`, src/rust_wrapper/xmss_alt/fips202.rs:20-22 (the offsets are literals from 1 to 62; bits shifted out are dropped). -/
def rol (a : UInt64) (offset : UInt64) : UInt64 := (a <<< offset) ^^^ (a >>> (64 - offset))

/-- `KECCAK_F_ROUND_CONSTANTS`, src/rust_wrapper/xmss_alt/fips202.rs:39-64. -/
def roundConstants : List UInt64 :=
  [0x0000000000000001,
   0x0000000000008082,
   0x800000000000808a,
   0x8000000080008000,
   0x000000000000808b,
   0x0000000080000001,
   0x8000000080008081,
   0x8000000000008009,
   0x000000000000008a,
   0x0000000000000088,
   0x0000000080008009,
   0x000000008000000a,
   0x000000008000808b,
   0x800000000000008b,
   0x8000000000008089,
   0x8000000000008003,
   0x8000000000008002,
   0x8000000000000080,
   0x000000000000800a,
   0x800000008000000a,
   0x8000000080008081,
   0x8000000000008080,
   0x0000000080000001,
   0x8000000080008008]

/-- One iteration of the loop over `round`, src/rust_wrapper/xmss_alt/fips202.rs:108-299; `rc0`, `rc1` are
`KECCAK_F_ROUND_CONSTANTS[round]` and `[round + 1]`. The 25 lane variables are those of lines 67-71. -/
def twoRounds (rc0 rc1 : UInt64) (s : Lanes) : Lanes :=
  let Aba := s.Aba
  let Abe := s.Abe
  let Abi := s.Abi
  let Abo := s.Abo
  let Abu := s.Abu
  let Aga := s.Aga
  let Age := s.Age
  let Agi := s.Agi
  let Ago := s.Ago
  let Agu := s.Agu
  let Aka := s.Aka
  let Ake := s.Ake
  let Aki := s.Aki
  let Ako := s.Ako
  let Aku := s.Aku
  let Ama := s.Ama
  let Ame := s.Ame
  let Ami := s.Ami
  let Amo := s.Amo
  let Amu := s.Amu
  let Asa := s.Asa
  let Ase := s.Ase
  let Asi := s.Asi
  let Aso := s.Aso
  let Asu := s.Asu
  let BCa := Aba ^^^ Aga ^^^ Aka ^^^ Ama ^^^ Asa
  let BCe := Abe ^^^ Age ^^^ Ake ^^^ Ame ^^^ Ase
  let BCi := Abi ^^^ Agi ^^^ Aki ^^^ Ami ^^^ Asi
  let BCo := Abo ^^^ Ago ^^^ Ako ^^^ Amo ^^^ Aso
  let BCu := Abu ^^^ Agu ^^^ Aku ^^^ Amu ^^^ Asu
  let Da := BCu ^^^ (rol BCe 1)
  let De := BCa ^^^ (rol BCi 1)
  let Di := BCe ^^^ (rol BCo 1)
  let Do := BCi ^^^ (rol BCu 1)
  let Du := BCo ^^^ (rol BCa 1)
  let Aba := Aba ^^^ Da
  let BCa := Aba
  let Age := Age ^^^ De
  let BCe := rol Age 44
  let Aki := Aki ^^^ Di
  let BCi := rol Aki 43
  let Amo := Amo ^^^ Do
  let BCo := rol Amo 21
  let Asu := Asu ^^^ Du
  let BCu := rol Asu 14
  let Eba := BCa ^^^ ((~~~BCe) &&& BCi)
  let Eba := Eba ^^^ rc0
  let Ebe := BCe ^^^ ((~~~BCi) &&& BCo)
  let Ebi := BCi ^^^ ((~~~BCo) &&& BCu)
  let Ebo := BCo ^^^ ((~~~BCu) &&& BCa)
  let Ebu := BCu ^^^ ((~~~BCa) &&& BCe)
  let Abo := Abo ^^^ Do
  let BCa := rol Abo 28
  let Agu := Agu ^^^ Du
  let BCe := rol Agu 20
  let Aka := Aka ^^^ Da
  let BCi := rol Aka 3
  let Ame := Ame ^^^ De
  let BCo := rol Ame 45
  let Asi := Asi ^^^ Di
  let BCu := rol Asi 61
  let Ega := BCa ^^^ ((~~~BCe) &&& BCi)
  let Ege := BCe ^^^ ((~~~BCi) &&& BCo)
  let Egi := BCi ^^^ ((~~~BCo) &&& BCu)
  let Ego := BCo ^^^ ((~~~BCu) &&& BCa)
  let Egu := BCu ^^^ ((~~~BCa) &&& BCe)
  let Abe := Abe ^^^ De
  let BCa := rol Abe 1
  let Agi := Agi ^^^ Di
  let BCe := rol Agi 6
  let Ako := Ako ^^^ Do
  let BCi := rol Ako 25
  let Amu := Amu ^^^ Du
  let BCo := rol Amu 8
  let Asa := Asa ^^^ Da
  let BCu := rol Asa 18
  let Eka := BCa ^^^ ((~~~BCe) &&& BCi)
  let Eke := BCe ^^^ ((~~~BCi) &&& BCo)
  let Eki := BCi ^^^ ((~~~BCo) &&& BCu)
  let Eko := BCo ^^^ ((~~~BCu) &&& BCa)
  let Eku := BCu ^^^ ((~~~BCa) &&& BCe)
  let Abu := Abu ^^^ Du
  let BCa := rol Abu 27
  let Aga := Aga ^^^ Da
  let BCe := rol Aga 36
  let Ake := Ake ^^^ De
  let BCi := rol Ake 10
  let Ami := Ami ^^^ Di
  let BCo := rol Ami 15
  let Aso := Aso ^^^ Do
  let BCu := rol Aso 56
  let Ema := BCa ^^^ ((~~~BCe) &&& BCi)
  let Eme := BCe ^^^ ((~~~BCi) &&& BCo)
  let Emi := BCi ^^^ ((~~~BCo) &&& BCu)
  let Emo := BCo ^^^ ((~~~BCu) &&& BCa)
  let Emu := BCu ^^^ ((~~~BCa) &&& BCe)
  let Abi := Abi ^^^ Di
  let BCa := rol Abi 62
  let Ago := Ago ^^^ Do
  let BCe := rol Ago 55
  let Aku := Aku ^^^ Du
  let BCi := rol Aku 39
  let Ama := Ama ^^^ Da
  let BCo := rol Ama 41
  let Ase := Ase ^^^ De
  let BCu := rol Ase 2
  let Esa := BCa ^^^ ((~~~BCe) &&& BCi)
  let Ese := BCe ^^^ ((~~~BCi) &&& BCo)
  let Esi := BCi ^^^ ((~~~BCo) &&& BCu)
  let Eso := BCo ^^^ ((~~~BCu) &&& BCa)
  let Esu := BCu ^^^ ((~~~BCa) &&& BCe)
  let BCa := Eba ^^^ Ega ^^^ Eka ^^^ Ema ^^^ Esa
  let BCe := Ebe ^^^ Ege ^^^ Eke ^^^ Eme ^^^ Ese
  let BCi := Ebi ^^^ Egi ^^^ Eki ^^^ Emi ^^^ Esi
  let BCo := Ebo ^^^ Ego ^^^ Eko ^^^ Emo ^^^ Eso
  let BCu := Ebu ^^^ Egu ^^^ Eku ^^^ Emu ^^^ Esu
  let Da := BCu ^^^ (rol BCe 1)
  let De := BCa ^^^ (rol BCi 1)
  let Di := BCe ^^^ (rol BCo 1)
  let Do := BCi ^^^ (rol BCu 1)
  let Du := BCo ^^^ (rol BCa 1)
  let Eba := Eba ^^^ Da
  let BCa := Eba
  let Ege := Ege ^^^ De
  let BCe := rol Ege 44
  let Eki := Eki ^^^ Di
  let BCi := rol Eki 43
  let Emo := Emo ^^^ Do
  let BCo := rol Emo 21
  let Esu := Esu ^^^ Du
  let BCu := rol Esu 14
  let Aba := BCa ^^^ ((~~~BCe) &&& BCi)
  let Aba := Aba ^^^ rc1
  let Abe := BCe ^^^ ((~~~BCi) &&& BCo)
  let Abi := BCi ^^^ ((~~~BCo) &&& BCu)
  let Abo := BCo ^^^ ((~~~BCu) &&& BCa)
  let Abu := BCu ^^^ ((~~~BCa) &&& BCe)
  let Ebo := Ebo ^^^ Do
  let BCa := rol Ebo 28
  let Egu := Egu ^^^ Du
  let BCe := rol Egu 20
  let Eka := Eka ^^^ Da
  let BCi := rol Eka 3
  let Eme := Eme ^^^ De
  let BCo := rol Eme 45
  let Esi := Esi ^^^ Di
  let BCu := rol Esi 61
  let Aga := BCa ^^^ ((~~~BCe) &&& BCi)
  let Age := BCe ^^^ ((~~~BCi) &&& BCo)
  let Agi := BCi ^^^ ((~~~BCo) &&& BCu)
  let Ago := BCo ^^^ ((~~~BCu) &&& BCa)
  let Agu := BCu ^^^ ((~~~BCa) &&& BCe)
  let Ebe := Ebe ^^^ De
  let BCa := rol Ebe 1
  let Egi := Egi ^^^ Di
  let BCe := rol Egi 6
  let Eko := Eko ^^^ Do
  let BCi := rol Eko 25
  let Emu := Emu ^^^ Du
  let BCo := rol Emu 8
  let Esa := Esa ^^^ Da
  let BCu := rol Esa 18
  let Aka := BCa ^^^ ((~~~BCe) &&& BCi)
  let Ake := BCe ^^^ ((~~~BCi) &&& BCo)
  let Aki := BCi ^^^ ((~~~BCo) &&& BCu)
  let Ako := BCo ^^^ ((~~~BCu) &&& BCa)
  let Aku := BCu ^^^ ((~~~BCa) &&& BCe)
  let Ebu := Ebu ^^^ Du
  let BCa := rol Ebu 27
  let Ega := Ega ^^^ Da
  let BCe := rol Ega 36
  let Eke := Eke ^^^ De
  let BCi := rol Eke 10
  let Emi := Emi ^^^ Di
  let BCo := rol Emi 15
  let Eso := Eso ^^^ Do
  let BCu := rol Eso 56
  let Ama := BCa ^^^ ((~~~BCe) &&& BCi)
  let Ame := BCe ^^^ ((~~~BCi) &&& BCo)
  let Ami := BCi ^^^ ((~~~BCo) &&& BCu)
  let Amo := BCo ^^^ ((~~~BCu) &&& BCa)
  let Amu := BCu ^^^ ((~~~BCa) &&& BCe)
  let Ebi := Ebi ^^^ Di
  let BCa := rol Ebi 62
  let Ego := Ego ^^^ Do
  let BCe := rol Ego 55
  let Eku := Eku ^^^ Du
  let BCi := rol Eku 39
  let Ema := Ema ^^^ Da
  let BCo := rol Ema 41
  let Ese := Ese ^^^ De
  let BCu := rol Ese 2
  let Asa := BCa ^^^ ((~~~BCe) &&& BCi)
  let Ase := BCe ^^^ ((~~~BCi) &&& BCo)
  let Asi := BCi ^^^ ((~~~BCo) &&& BCu)
  let Aso := BCo ^^^ ((~~~BCu) &&& BCa)
  let Asu := BCu ^^^ ((~~~BCa) &&& BCe)
  ⟨Aba, Abe, Abi, Abo, Abu,
   Aga, Age, Agi, Ago, Agu,
   Aka, Ake, Aki, Ako, Aku,
   Ama, Ame, Ami, Amo, Amu,
   Asa, Ase, Asi, Aso, Asu⟩

/-- The loop `for round in (0..NROUNDS).step_by(2)`, src/rust_wrapper/xmss_alt/fips202.rs:107. -/
def roundLoop : List UInt64 → Lanes → Lanes
  | rc0 :: rc1 :: rcs, s => roundLoop rcs (twoRounds rc0 rc1 s)
  | _, s => s

/-- `keccak_f1600_state_permute`, src/rust_wrapper/xmss_alt/fips202.rs:66-325. -/
def keccakF (s : KState) : KState :=
  let a := roundLoop roundConstants
    ⟨s[0], s[1], s[2], s[3], s[4], s[5], s[6], s[7], s[8], s[9], s[10], s[11], s[12],
     s[13], s[14], s[15], s[16], s[17], s[18], s[19], s[20], s[21], s[22], s[23], s[24]⟩
  #v[a.Aba, a.Abe, a.Abi, a.Abo, a.Abu, a.Aga, a.Age, a.Agi, a.Ago, a.Agu,
     a.Aka, a.Ake, a.Aki, a.Ako, a.Aku, a.Ama, a.Ame, a.Ami, a.Amo, a.Amu,
     a.Asa, a.Ase, a.Asi, a.Aso, a.Asu]

open Res

/-- `load64` on the (at most 8) bytes given, src/rust_wrapper/xmss_alt/fips202.rs:23-30: `r |= x[i] << 8 * i`. -/
def load64 : Bytes → UInt64
  | [] => 0
  | b :: bs => b.toUInt64 ||| (load64 bs <<< 8)

/-- `store64`, src/rust_wrapper/xmss_alt/fips202.rs:32-37, `k` bytes (8 in the code). -/
def store64 : Nat → UInt64 → Bytes
  | 0, _ => []
  | k + 1, u => u.toUInt8 :: store64 k (u >>> 8)

/-- `for i in 0..(r / 8) { s[i] ^= load64(&m[8 * i..]) }`, src/rust_wrapper/xmss_alt/fips202.rs:332-334 and 350-352:
the indexing panics if `m` is shorter than the `r` bytes read. -/
def xorBlock (s : KState) (r : Nat) (m : Bytes) : Res KState :=
  if m.length < 8 * (r / 8) then panic
  else ok (Vector.ofFn fun i : Fin 25 =>
    if i.val < r / 8 then s[i] ^^^ load64 ((m.drop (8 * i.val)).take 8) else s[i])

/-- The loop `while mlen >= r` of `keccak_absorb`, src/rust_wrapper/xmss_alt/fips202.rs:331-338. `mTotal` is `m.len()`,
`mc` is `m_clone`. Line 337 takes `m_clone[r..m.len()]`, with the length of the whole message as upper bound: a panic
unless `m_clone` is still as long as `m`. Returns the state and the remaining `mlen`. -/
def absorbLoop (r mTotal : Nat) (s : KState) (mc : Bytes) (mlen : Nat) : Res (KState × Nat) :=
  if _h : 0 < r ∧ r ≤ mlen then do
    let s ← xorBlock s r mc
    let s := keccakF s
    if mTotal ≤ mc.length ∧ r ≤ mTotal then
      absorbLoop r mTotal s ((mc.take mTotal).drop r) (mlen - r)
    else panic
  else ok (s, mlen)
termination_by mlen

/-- `keccak_absorb`, src/rust_wrapper/xmss_alt/fips202.rs:327-353. The last block is copied from the *beginning* of the
message (`t[i] = m[i]`, line 345), whatever was absorbed before. -/
def keccakAbsorb (s : KState) (r : Nat) (m : Bytes) (mlen : Nat) (p : UInt8) : Res KState := do
  let (s, mlen) ← absorbLoop r m.length s m mlen
  let head ← slice m 0 mlen
  let t : Bytes := head ++ List.replicate (200 - mlen) 0
  let t ← wr t mlen p
  let last ← rd t (r - 1)
  let t ← wr t (r - 1) (last ||| 128)
  xorBlock s r t

/-- `store64(&mut h[8 * i..], s[i])` for `i < r / 8`, src/rust_wrapper/xmss_alt/fips202.rs:359-361. -/
def stateBytes (s : KState) (r : Nat) : Bytes := (s.toList.take (r / 8)).flatMap (store64 8)

/-- `keccak_squeezeblocks`, src/rust_wrapper/xmss_alt/fips202.rs:355-365: the output and the new state. All callers pass
a buffer of at least `nblocks * r` bytes. -/
def keccakSqueezeBlocks : Nat → KState → Nat → Bytes × KState
  | 0, s, _ => ([], s)
  | nblocks + 1, s, r =>
    let s1 := keccakF s
    let (rest, s2) := keccakSqueezeBlocks nblocks s1 r
    (stateBytes s1 r ++ rest, s2)

/-- `shake128`, src/rust_wrapper/xmss_alt/fips202.rs:367-388, with an output buffer of at least `outlen` bytes. -/
def fipsShake128 (outlen : Nat) (inp : Bytes) (inlen : Nat) : Res Bytes := do
  let s ← keccakAbsorb (Vector.replicate 25 0) 168 inp inlen 0x1F
  let (out, s) := keccakSqueezeBlocks (outlen / 168) s 168
  if outlen % 168 > 0 then
    let (d, _) := keccakSqueezeBlocks 1 s 168
    ok (out ++ d.take (outlen % 168))
  else ok out

/-- `shake256`, src/rust_wrapper/xmss_alt/fips202.rs:390-409, with an output buffer of at least `outlen` bytes. -/
def fipsShake256 (outlen : Nat) (inp : Bytes) (inlen : Nat) : Res Bytes := do
  let s ← keccakAbsorb (Vector.replicate 25 0) 136 inp inlen 0x1F
  let (out, s) := keccakSqueezeBlocks (outlen / 136) s 136
  if outlen % 136 > 0 then
    let (d, _) := keccakSqueezeBlocks 1 s 136
    ok (out ++ d.take (outlen % 136))
  else ok out

/-- `hashing::shake128`, src/rust_wrapper/qrl/hashing.rs:4-8. -/
def shake128 (hashSize : Nat) (inp : Bytes) : Res Bytes := fipsShake128 hashSize inp inp.length

/-- `hashing::shake256`, src/rust_wrapper/qrl/hashing.rs:10-14. -/
def shake256 (hashSize : Nat) (inp : Bytes) : Res Bytes := fipsShake256 hashSize inp inp.length

/-- `hashing::sha2_256`, src/rust_wrapper/qrl/hashing.rs:16-18 and src/rust_wrapper/shasha/shasha.rs:5-14: the `sha2`
crate, which is not in the repository; the same parameter as for the C++ model. -/
def sha2_256 (S : Sha256) (inp : Bytes) : Bytes := S.hash inp

/-- The loop `for _ in 1..count`, src/rust_wrapper/qrl/hashing.rs:28-30. -/
def sha2Loop (S : Sha256) : Nat → Bytes → Bytes
  | 0, x => x
  | k + 1, x => sha2Loop S k (sha2_256 S x)

/-- `sha2_256_n`, src/rust_wrapper/qrl/hashing.rs:20-33. -/
def sha2_256_n (S : Sha256) (inp : Bytes) (count : Nat) : Res Bytes :=
  if count = 0 then err .invalidArgument
  else ok (sha2Loop S (count - 1) (sha2_256 S inp))

end Qrl.Rs
