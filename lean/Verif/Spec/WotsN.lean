import Verif.Spec.Xmss
import Verif.Model.Hash
/-!
# The hash functions of XMSS and WOTS+ for an output length of `n` bytes (RFC 8391, sections 2.5, 3.1 and 5.1)

Of the model it uses only the type of hash addresses (eight words) and the functions `shake128` and `shake256`, which are those of
FIPS 202 (`C32_shake128`, `C32_shake256`).
-/

namespace Qrl.Spec

/-- The hash function for enumerator `hf` (0: SHA2-256, 1: SHAKE-128, 2: SHAKE-256) with an output of `n` bytes, for the pairs
the library supports. -/
def hashN (S : Sha256) (hf n : Nat) : Option (Bytes → Bytes) :=
  if hf = 0 ∧ n = 32 then some S.hash
  else if hf = 1 ∧ (n = 32 ∨ n = 64) then some (Qrl.shake128 n)
  else if hf = 2 ∧ (n = 32 ∨ n = 64) then some (Qrl.shake256 n)
  else none

/-- A hash address with its last word replaced by `km`. -/
def adrsN (a : Adrs) (km : Nat) : Bytes :=
  be 4 a.w0 ++ be 4 a.w1 ++ be 4 a.w2 ++ be 4 a.w3 ++ be 4 a.w4 ++ be 4 a.w5 ++ be 4 a.w6 ++ be 4 km

/-- The pseudorandom function. -/
def PRFn (G : Bytes → Bytes) (n : Nat) (key m : Bytes) : Bytes := G (be n 3 ++ key ++ m)

/-- The message hash. -/
def HmsgN (G : Bytes → Bytes) (n : Nat) (key m : Bytes) : Bytes := G (be n 2 ++ key ++ m)

/-- One chain step at address `a`. -/
def Fn (G : Bytes → Bytes) (n : Nat) (seed : Bytes) (a : Adrs) (x : Bytes) : Bytes :=
  G (be n 0 ++ PRFn G n seed (adrsN a 0) ++ xor x (PRFn G n seed (adrsN a 1)))

/-- `RAND_HASH` at address `a`. -/
def Hn (G : Bytes → Bytes) (n : Nat) (seed : Bytes) (a : Adrs) (l r : Bytes) : Bytes :=
  G (be n 1 ++ PRFn G n seed (adrsN a 0) ++ xor (l ++ r) (PRFn G n seed (adrsN a 1) ++ PRFn G n seed (adrsN a 2)))

/-- `steps` steps of chain `ch` of the one-time key at `a`, beginning at position `start`. -/
def chainN (G : Bytes → Bytes) (n : Nat) (seed : Bytes) (a : Adrs) (ch : Nat) : Nat → Nat → Bytes → Bytes
  | _, 0, x => x
  | start, m + 1, x => chainN G n seed a ch (start + 1) m (Fn G n seed { a with w5 := ch, w6 := start } x)

/-- The WOTS+ public key of the secret seed `sk`: the ends of its `len` chains. -/
def wotsPkN (G : Bytes → Bytes) (n w len : Nat) (sk seed : Bytes) (a : Adrs) : List Bytes :=
  (List.range len).map fun ch => chainN G n seed a ch 0 (w - 1) (PRFn G n sk (be 32 ch))

/-- The WOTS+ signature that reveals the positions `ds` of the chains. -/
def wotsSigN (G : Bytes → Bytes) (n : Nat) (ds : List Nat) (sk seed : Bytes) (a : Adrs) : List Bytes :=
  ds.zipIdx.map fun (d, ch) => chainN G n seed a ch 0 d (PRFn G n sk (be 32 ch))

/-- The number of positions for the digest itself (RFC 8391, section 3.1.1: `ceil(8n / lg w)`). -/
def len1N (n w : Nat) : Nat := 8 * n / Nat.log2 w

/-- The number of positions for the checksum (RFC 8391, section 3.1.1: `floor(lg (len_1 (w - 1)) / lg w) + 1`). -/
def len2N (n w : Nat) : Nat := Nat.log2 (len1N n w * (w - 1)) / Nat.log2 w + 1

end Qrl.Spec
