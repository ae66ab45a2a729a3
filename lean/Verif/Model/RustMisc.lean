import Verif.Model.RustApi
import Verif.Model.Misc
/-!
# src/rust_wrapper/qrl/misc.rs and wordlist.rs

A Rust `String` is the list of its `char`s (Unicode scalar values, as Lean's `Char`); its bytes are the UTF-8 encoding.
-/

namespace Qrl.Rs

open Res

/-- A Rust `String`.
As in `hstr2bin`, src/rust_wrapper/qrl/misc.rs:43. -/
abbrev Str := List Char

/-- `s.as_bytes()`; `str2bin`, src/rust_wrapper/qrl/misc.rs:26-28. -/
def str2bin (s : Str) : Bytes := s.flatMap String.utf8EncodeChar

/-- A text whose characters are given by their codes (used for literals and the word list).
The literals of src/rust_wrapper/qrl/wordlist.rs:1-403. -/
def ofCodes (b : Bytes) : Str := b.map fun x => Char.ofNat x.toNat

/-- A hexadecimal digit as printed by `format!("{:02x}")`, src/rust_wrapper/qrl/misc.rs:21. -/
def hexChar (n : Nat) : Char := if n < 10 then Char.ofNat (48 + n) else Char.ofNat (97 + (n - 10))

/-- The loop of `bin2hstr`, src/rust_wrapper/qrl/misc.rs:13-22. The `u32` counter overflows only if `wrap` is 2^32 - 1 and
the input has 2^32 bytes or more, which is not modelled. -/
def bin2hstrLoop (wrap : Nat) : Nat → Bytes → Str
  | _, [] => []
  | count, val :: vec =>
    let hex := [hexChar (val.toNat / 16), hexChar (val.toNat % 16)]
    if wrap > 0 then
      let count := count + 1
      if count > wrap then
        '\n' :: (hex ++ bin2hstrLoop wrap 1 vec)
      else hex ++ bin2hstrLoop wrap count vec
    else hex ++ bin2hstrLoop wrap count vec

/-- `bin2hstr`, src/rust_wrapper/qrl/misc.rs:9-24. -/
def bin2hstr (vec : Bytes) (wrap : Nat) : Str := bin2hstrLoop wrap 0 vec

/-- `binstr2hstr`, src/rust_wrapper/qrl/misc.rs:30-32. -/
def binstr2hstr (s : Str) (wrap : Nat) : Str := bin2hstr (str2bin s) wrap

/-- `c.is_digit(16)`, src/rust_wrapper/qrl/misc.rs:62: the 22 ASCII digits. -/
def isDigit16 (c : Char) : Bool :=
  (48 ≤ c.toNat && c.toNat ≤ 57) || (65 ≤ c.toNat && c.toNat ≤ 70) || (97 ≤ c.toNat && c.toNat ≤ 102)

/-- `get_hex_value`, src/rust_wrapper/qrl/misc.rs:34-41, on the characters it is called with (ASCII, so `to_lowercase` is the
ASCII mapping). -/
def getHexValue (c : Char) : UInt8 :=
  let tmp := if 65 ≤ c.toNat && c.toNat ≤ 90 then c.toNat + 32 else c.toNat
  if 48 ≤ tmp && tmp ≤ 57 then UInt8.ofNat tmp - 48 else UInt8.ofNat tmp - 97 + 10

/-- The loop of `hstr2bin`, src/rust_wrapper/qrl/misc.rs:50-71; a single character left over is an error. -/
def hstr2binLoop : Str → Res Bytes
  | [] => ok []
  | [_] => err .invalidArgument
  | c1 :: c2 :: s => do
    if !isDigit16 c1 || !isDigit16 c2 then err .invalidArgument
    else
      let v := (getHexValue c1 <<< 4) + getHexValue c2
      let rest ← hstr2binLoop s
      ok (v :: rest)

/-- `hstr2bin`, src/rust_wrapper/qrl/misc.rs:43-72; `s.len()` counts the bytes. -/
def hstr2bin (s : Str) : Res Bytes :=
  if (str2bin s).length % 2 ≠ 0 then err .invalidArgument else hstr2binLoop s

/-- `WORDLIST`, src/rust_wrapper/qrl/wordlist.rs:1-403. The table was compared with src/qrl/wordlist.cpp by a script: the same
4096 words in the same order. -/
def wordlist : List Str := Qrl.wordlist.map ofCodes

/-- One word index of `bin2mnemonic`, src/rust_wrapper/qrl/misc.rs:83-94. -/
def mnemonicIdx (vec : Bytes) (nibble : Nat) : Res Nat := do
  let p := nibble >>> 1
  let b1 ← rd vec p
  let b2 ← if p + 1 < vec.length then rd vec (p + 1) else ok 0
  if nibble % 2 = 0 then ok ((b1.toNat <<< 4) + (b2.toNat >>> 4))
  else ok (((b1.toNat &&& 0x0F) <<< 8) + b2.toNat)

/-- The loop of `bin2mnemonic`, src/rust_wrapper/qrl/misc.rs:82-99. -/
def bin2mnemonicLoop (vec : Bytes) (nibble : Nat) : Res Str :=
  if _h : nibble < vec.length * 2 then do
    let idx ← mnemonicIdx vec nibble
    let w ← rd wordlist idx
    let rest ← bin2mnemonicLoop vec (nibble + 3)
    ok ((if nibble ≠ 0 then [' '] else []) ++ w ++ rest)
  else ok []
termination_by vec.length * 2 - nibble

/-- `bin2mnemonic`, src/rust_wrapper/qrl/misc.rs:74-101. -/
def bin2mnemonic (vec : Bytes) : Res Str :=
  if vec.length % 3 ≠ 0 then err .invalidArgument else bin2mnemonicLoop vec 0

/-- `char::is_whitespace` (the Unicode property `White_Space`), used by `split_whitespace`.
src/rust_wrapper/qrl/misc.rs:104 and 123. -/
def isWhitespace (c : Char) : Bool :=
  let n := c.toNat
  (9 ≤ n && n ≤ 13) || n == 0x20 || n == 0x85 || n == 0xA0 || n == 0x1680 || (0x2000 ≤ n && n ≤ 0x200A) || n == 0x2028 ||
    n == 0x2029 || n == 0x202F || n == 0x205F || n == 0x3000

/-- `str::split_whitespace`, src/rust_wrapper/qrl/misc.rs:104 and 123: maximal runs of other characters; `cur` is the word
being accumulated. -/
def splitWhitespace : Str → Str → List Str
  | cur, [] => if cur.isEmpty then [] else [cur]
  | cur, c :: s =>
    if isWhitespace c then
      if cur.isEmpty then splitWhitespace [] s else cur :: splitWhitespace [] s
    else splitWhitespace (cur ++ [c]) s

/-- The `HashMap` of src/rust_wrapper/qrl/misc.rs:112-117: a later `insert` replaces an earlier one. -/
def buildLookup : List Str → Nat → List (Str × Nat) → List (Str × Nat)
  | [], _, m => m
  | w :: ws, count, m => buildLookup ws (count + 1) ((w, count) :: m)

/-- `word_lookup.get(word)`, src/rust_wrapper/qrl/misc.rs:124. -/
@[irreducible] def wordLookup (word : Str) : Option Nat := (buildLookup wordlist 0 []).lookup word

/-- The inner loop, src/rust_wrapper/qrl/misc.rs:136-143, on `buffering` and the `u32` `current` (which stays below 2^20). -/
def drainNibbles (buffering current : Nat) : Bytes × Nat × Nat :=
  if _h : buffering > 2 then
    let shift := 4 * (buffering - 2)
    let mask := (1 <<< shift) - 1
    let tmp := current >>> shift
    let (out, b, c) := drainNibbles (buffering - 2) (current &&& mask)
    (UInt8.ofNat tmp :: out, b, c)
  else ([], buffering, current)
termination_by buffering

/-- The loop over the words and the flush, src/rust_wrapper/qrl/misc.rs:121-150. -/
def mnemonicLoop : List Str → Nat → Nat → Res Bytes
  | [], buffering, current =>
    if buffering > 0 then ok [UInt8.ofNat (current &&& 0xFF)] else ok []
  | word :: ws, buffering, current =>
    match wordLookup word with
    | none => err .invalidArgument
    | some value => do
      let (out, b, c) := drainNibbles (buffering + 3) ((current <<< 12) + value)
      let rest ← mnemonicLoop ws b c
      ok (out ++ rest)

/-- `mnemonic2bin`, src/rust_wrapper/qrl/misc.rs:103-151. -/
def mnemonic2bin (mnemonic : Str) : Res Bytes :=
  let wordCount := (splitWhitespace [] mnemonic).length
  if wordCount % 2 ≠ 0 then err .invalidArgument
  else mnemonicLoop (splitWhitespace [] mnemonic) 0 0

/-- `get_random_seed`, src/rust_wrapper/qrl/misc.rs:153-160. `os` is what `OsRng.fill_bytes` does for a buffer of a given size:
these bytes (of which there are that many), or a panic. -/
def getRandomSeed (os : Nat → Option Bytes) (seedSize : Nat) (entropy : Str) : Res Bytes :=
  match os seedSize with
  | none => panic
  | some tmp => shake256 seedSize (tmp ++ str2bin entropy)

/-- `(v >> 8 * j) as u8`, `j = 0..3`: src/rust_wrapper/qrl/misc.rs:168-170 and 174-176. -/
def le32 (v : Nat) : Bytes :=
  [UInt8.ofNat v, UInt8.ofNat (v >>> 8), UInt8.ofNat (v >>> 16), UInt8.ofNat (v >>> 24)]

/-- The loop of `get_hash_chain_seed`, src/rust_wrapper/qrl/misc.rs:173-178; `tmpSeed` is the buffer all iterations reuse. -/
def hashChainLoop (tmpSeed : Bytes) (p i : Nat) : Nat → Res (List Bytes)
  | 0 => ok []
  | k + 1 => do
    let tmpSeed := tmpSeed.take p ++ le32 i ++ tmpSeed.drop (p + 4)
    let h ← shake256 32 tmpSeed
    let rest ← hashChainLoop tmpSeed p (i + 1) k
    ok (h :: rest)

/-- `get_hash_chain_seed`, src/rust_wrapper/qrl/misc.rs:162-180; `seedShift` and `count` are `u32`. -/
def getHashChainSeed (seed : Bytes) (seedShift count : Nat) : Res (List Bytes) :=
  let tmpSeed := seed ++ List.replicate 8 0
  let p := seed.length
  let tmpSeed := tmpSeed.take p ++ le32 seedShift ++ tmpSeed.drop (p + 4)
  hashChainLoop tmpSeed (p + 4) 0 count

end Qrl.Rs
