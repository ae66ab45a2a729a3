import Verif.Model.Keccak
import Verif.Model.Wordlist
/-!
# src/qrl/misc.cpp

Strings are byte lists (`char` of 8 bits). The `int` loop counters of the source overflow only for
inputs of 2^31 or more bytes, which is not modelled.
-/

namespace Qrl

open Outcome

/-- Lower-case hexadecimal digit printed by `std::hex`, used in src/qrl/misc.cpp:26. -/
def hexDigit (n : Nat) : UInt8 :=
  if n < 10 then UInt8.ofNat (48 + n) else UInt8.ofNat (97 + (n - 10))

/-- `ss << setfill('0') << setw(2) << hex << (int) val`, src/qrl/misc.cpp:26. -/
def hexByte (v : UInt8) : Bytes := [hexDigit (v.toNat / 16), hexDigit (v.toNat % 16)]

/-- The loop of `bin2hstr`, src/qrl/misc.cpp:18-27, with the running `count`. -/
def bin2hstrLoop (wrap : Nat) : Nat → Bytes → Bytes
  | _, [] => []
  | count, val :: vec =>
    if wrap > 0 then
      let count := count + 1
      if count > wrap then
        0x0A :: (hexByte val ++ bin2hstrLoop wrap 1 vec)
      else hexByte val ++ bin2hstrLoop wrap count vec
    else hexByte val ++ bin2hstrLoop wrap count vec

/-- `bin2hstr`, src/qrl/misc.cpp:14-30 (and the `std::string` overload 32-34, `str2bin` 36-39). -/
def bin2hstr (vec : Bytes) (wrap : Nat) : Bytes := bin2hstrLoop wrap 0 vec

/-- `std::isxdigit(c)` for a `char c`, as called in src/qrl/misc.cpp:56. The argument is promoted
from (signed) `char`: 0xFF becomes `EOF` (result false), 0x80..0xFE become other negative values,
for which the call is undefined. -/
def isxdigitChar (c : UInt8) : Outcome Bool :=
  if c < 128 then
    ok ((48 ≤ c && c ≤ 57) || (65 ≤ c && c ≤ 70) || (97 ≤ c && c ≤ 102))
  else if c = 255 then ok false
  else ub

/-- `std::tolower` in the "C" locale, as called in src/qrl/misc.cpp:42. -/
def tolowerChar (c : UInt8) : UInt8 := if 65 ≤ c && c ≤ 90 then c + 32 else c

/-- `getHexValue`, src/qrl/misc.cpp:41-47 (truncated to `unsigned char`). -/
def getHexValue (c : UInt8) : UInt8 :=
  let tmp := tolowerChar c
  if 48 ≤ tmp && tmp ≤ 57 then tmp - 48 else tmp - 97 + 10

/-- The loop of `hstr2bin`, src/qrl/misc.cpp:55-62; `||` short-circuits. The one-character case
cannot occur because of the size check in `hstr2bin` (the code would read the terminating NUL). -/
def hstr2binLoop : Bytes → Outcome Bytes
  | [] => ok []
  | [_] => ub
  | c0 :: c1 :: s => do
    let x0 ← isxdigitChar c0
    if !x0 then throw .invalidArgument
    else
      let x1 ← isxdigitChar c1
      if !x1 then throw .invalidArgument
      else
        let v := (getHexValue c0 <<< 4) + getHexValue c1
        let rest ← hstr2binLoop s
        ok (v :: rest)

/-- `hstr2bin`, src/qrl/misc.cpp:49-65. -/
def hstr2bin (s : Bytes) : Outcome Bytes :=
  if s.length % 2 ≠ 0 then throw .invalidArgument else hstr2binLoop s

/-- One word index of `bin2mnemonic`, src/qrl/misc.cpp:76-79. -/
def mnemonicIdx (vec : Bytes) (nibble : Nat) : Outcome Nat := do
  let p := nibble >>> 1
  let b1 ← rd vec p
  let b2 ← if p + 1 < vec.length then rd vec (p + 1) else ok 0
  if nibble % 2 = 0 then ok ((b1.toNat <<< 4) + (b2.toNat >>> 4))
  else ok (((b1.toNat &&& 0x0F) <<< 8) + b2.toNat)

/-- The loop of `bin2mnemonic`, src/qrl/misc.cpp:75-82. -/
def bin2mnemonicLoop (vec : Bytes) (nibble : Nat) (separator : Bytes) : Outcome Bytes :=
  if _h : nibble < vec.length * 2 then do
    let idx ← mnemonicIdx vec nibble
    let w ← rd wordlist idx
    let rest ← bin2mnemonicLoop vec (nibble + 3) [0x20]
    ok (separator ++ w ++ rest)
  else ok []
termination_by vec.length * 2 - nibble

/-- `bin2mnemonic`, src/qrl/misc.cpp:67-85. -/
def bin2mnemonic (vec : Bytes) : Outcome Bytes :=
  if vec.length % 3 ≠ 0 then throw .invalidArgument
  else bin2mnemonicLoop vec 0 []

/-- `std::isspace` in the "C" locale; used by `ss >> word`, src/qrl/misc.cpp:111. -/
def isSpaceChar (c : UInt8) : Bool := c == 32 || (9 ≤ c && c ≤ 13)

/-- The successive values of `word` in `while (ss >> word)`, src/qrl/misc.cpp:111: maximal runs of
non-space characters. `cur` is the word being accumulated. -/
def streamWords : Bytes → Bytes → List Bytes
  | cur, [] => if cur.isEmpty then [] else [cur]
  | cur, c :: s =>
    if isSpaceChar c then
      if cur.isEmpty then streamWords [] s else cur :: streamWords [] s
    else streamWords (cur ++ [c]) s

/-- The lookup map of src/qrl/misc.cpp:95-101: `word_lookup[w] = count++` for each word in turn, so a
later entry would replace an earlier one. -/
def buildLookup : List Bytes → Nat → List (Bytes × Nat) → List (Bytes × Nat)
  | [], _, m => m
  | w :: ws, count, m => buildLookup ws (count + 1) ((w, count) :: m)

/-- `word_lookup.find(word)`, src/qrl/misc.cpp:112. -/
@[irreducible] def wordLookup (word : Bytes) : Option Nat := (buildLookup wordlist 0 []).lookup word

/-- The inner loop `while (buffering > 2)`, src/qrl/misc.cpp:120-127: returns the pushed bytes and the
new `buffering` and `current`. -/
def drainNibbles (buffering current : Nat) : Bytes × Nat × Nat :=
  if _h : buffering > 2 then
    let shift := 4 * (buffering - 2)
    let mask := (1 <<< shift) - 1
    let tmp := current >>> shift
    let (out, b, c) := drainNibbles (buffering - 2) (current &&& mask)
    (UInt8.ofNat tmp :: out, b, c)
  else ([], buffering, current)
termination_by buffering

/-- The loop over words and the final flush of `mnemonic2bin`, src/qrl/misc.cpp:111-132. -/
def mnemonicLoop : List Bytes → Nat → Nat → Outcome Bytes
  | [], buffering, current =>
    if buffering > 0 then ok [UInt8.ofNat (current &&& 0xFF)] else ok []
  | word :: ws, buffering, current =>
    match wordLookup word with
    | none => throw .invalidArgument
    | some idx => do
      let (out, b, c) := drainNibbles (buffering + 3) ((current <<< 12) + idx)
      let rest ← mnemonicLoop ws b c
      ok (out ++ rest)

/-- `mnemonic2bin`, src/qrl/misc.cpp:87-135. -/
def mnemonic2bin (mnemonic : Bytes) : Outcome Bytes :=
  let wordCount := mnemonic.count 32 + 1
  if wordCount % 2 ≠ 0 then throw .invalidArgument
  else mnemonicLoop (streamWords [] mnemonic) 0 0

/-- What the operating system delivers when `getRandomSeed` opens and reads `/dev/urandom`
(src/qrl/misc.cpp:140-147): the file cannot be opened, or these bytes could be read (a prefix of the
stream, possibly shorter than requested). -/
inductive Urandom where
  | openFailed
  | stream (available : Bytes)
  deriving DecidableEq, Repr

/-- `getRandomSeed`, src/qrl/misc.cpp:137-155. -/
def getRandomSeed (os : Urandom) (seedSize : Nat) (entropy : Bytes) : Outcome Bytes :=
  match os with
  | .openFailed => throw .runtimeError
  | .stream available =>
    if available.length < seedSize then throw .runtimeError
    else
      let tmp := available.take seedSize
      ok (shake256 seedSize (tmp ++ entropy))

/-- Four bytes `(v >> 8*j) & 0xFF`, `j = 0..3`: src/qrl/misc.cpp:165-167 and 172-174. -/
def le32 (v : Nat) : Bytes :=
  [UInt8.ofNat v, UInt8.ofNat (v >>> 8), UInt8.ofNat (v >>> 16), UInt8.ofNat (v >>> 24)]

/-- The loop of `getHashChainSeed`, src/qrl/misc.cpp:170-178; `tmpSeed` is the buffer reused by all
iterations, whose bytes `p..p+3` are overwritten. -/
def hashChainLoop (tmpSeed : Bytes) (p i : Nat) : Nat → List Bytes
  | 0 => []
  | k + 1 =>
    let tmpSeed := tmpSeed.take p ++ le32 i ++ tmpSeed.drop (p + 4)
    shake256 32 tmpSeed :: hashChainLoop tmpSeed p (i + 1) k

/-- `getHashChainSeed`, src/qrl/misc.cpp:157-181; `seedShift` and `count` are `uint32_t`. -/
def getHashChainSeed (seed : Bytes) (seedShift count : Nat) : List Bytes :=
  let tmpSeed := seed ++ List.replicate 8 0
  let p := seed.length
  let tmpSeed := tmpSeed.take p ++ le32 seedShift ++ tmpSeed.drop (p + 4)
  hashChainLoop tmpSeed (p + 4) 0 count

end Qrl
