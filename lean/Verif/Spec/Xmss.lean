import Verif.Model.Basic
/-!
# Specification of the XMSS hash tree, in the style of RFC 8391 (n = 32)

Everything is defined from one function `G : Bytes → Bytes`, the hash with 32-byte output. Nothing here
refers to the model of the code; there is no mutable state: every hash call is given its address.
-/

namespace Qrl.Spec

/-- `k` bytes, most significant first (RFC 8391 `toByte`). -/
def be (k n : Nat) : Bytes := (List.range k).map fun i => UInt8.ofNat (n / 256 ^ (k - 1 - i))

/-- A 32-byte hash address (RFC 8391, 2.5): layer 0, tree 0, then five 32-bit words. -/
def address (type a b c keyAndMask : Nat) : Bytes :=
  be 4 0 ++ be 8 0 ++ be 4 type ++ be 4 a ++ be 4 b ++ be 4 c ++ be 4 keyAndMask

/-- Bitwise exclusive or of two strings. -/
def xor (a b : Bytes) : Bytes := List.zipWith (· ^^^ ·) a b

/-- The pseudorandom function (RFC 8391, 5.1). -/
def PRF (G : Bytes → Bytes) (key m : Bytes) : Bytes := G (be 32 3 ++ key ++ m)

/-- The message hash (RFC 8391, 5.1). -/
def Hmsg (G : Bytes → Bytes) (key m : Bytes) : Bytes := G (be 32 2 ++ key ++ m)

/-- One chain step of WOTS+ (RFC 8391, algorithm 2) at address (type, a, b, c). -/
def F (G : Bytes → Bytes) (seed : Bytes) (type a b c : Nat) (x : Bytes) : Bytes :=
  G (be 32 0 ++ PRF G seed (address type a b c 0) ++ xor x (PRF G seed (address type a b c 1)))

/-- `RAND_HASH` (RFC 8391, algorithm 7) at address (type, a, b, c). -/
def H (G : Bytes → Bytes) (seed : Bytes) (type a b c : Nat) (l r : Bytes) : Bytes :=
  G (be 32 1 ++ PRF G seed (address type a b c 0) ++
    xor (l ++ r) (PRF G seed (address type a b c 1) ++ PRF G seed (address type a b c 2)))

/-- `steps` steps of chain `ch` of one-time key `i`, beginning at position `start` (RFC 8391, algorithm 2). -/
def chain (G : Bytes → Bytes) (seed : Bytes) (i ch : Nat) : Nat → Nat → Bytes → Bytes
  | _, 0, x => x
  | start, n + 1, x => chain G seed i ch (start + 1) n (F G seed 0 i ch start x)

/-- The secret start of chain `ch` of one-time key `i`. -/
def wotsSecret (G : Bytes → Bytes) (skSeed : Bytes) (i ch : Nat) : Bytes :=
  PRF G (PRF G skSeed (address 0 i 0 0 0)) (be 32 ch)

/-- The WOTS+ public key `i`: the ends of its `len` chains (RFC 8391, algorithm 4). -/
def wotsPk (G : Bytes → Bytes) (w len : Nat) (skSeed seed : Bytes) (i : Nat) : List Bytes :=
  (List.range len).map fun ch => chain G seed i ch 0 (w - 1) (wotsSecret G skSeed i ch)

/-- One level of a tree: neighbours are combined, a last odd one is kept. -/
def pairUp (f : Nat → Bytes → Bytes → Bytes) : Nat → List Bytes → List Bytes
  | j, a :: b :: rest => f j a b :: pairUp f (j + 1) rest
  | _, l => l

theorem length_pairUp (f : Nat → Bytes → Bytes → Bytes) : ∀ (l : List Bytes) (j : Nat),
    (pairUp f j l).length = (l.length + 1) / 2
  | [], _ => by simp [pairUp]
  | [_], _ => by simp [pairUp]
  | _ :: _ :: rest, j => by
    simp only [pairUp, List.length_cons, length_pairUp f rest (j + 1)]
    omega

/-- The L-tree of one-time key `i` (RFC 8391, algorithm 8), from `height` on. -/
def ltree (G : Bytes → Bytes) (seed : Bytes) (i height : Nat) (l : List Bytes) : Bytes :=
  if h : 1 < l.length then ltree G seed i (height + 1) (pairUp (fun j => H G seed 1 i height j) 0 l)
  else l.headD []
termination_by l.length
decreasing_by rw [length_pairUp]; omega

/-- Leaf `i` of the XMSS tree. -/
def leaf (G : Bytes → Bytes) (w len : Nat) (skSeed seed : Bytes) (i : Nat) : Bytes :=
  ltree G seed i 0 (wotsPk G w len skSeed seed i)

/-- Node `i` (from the left) of height `l` of the XMSS tree. -/
def node (G : Bytes → Bytes) (w len : Nat) (skSeed seed : Bytes) : Nat → Nat → Bytes
  | 0, i => leaf G w len skSeed seed i
  | l + 1, i => H G seed 2 0 l i (node G w len skSeed seed l (2 * i)) (node G w len skSeed seed l (2 * i + 1))

/-- The other child of the same parent. -/
def sibling (i : Nat) : Nat := if i % 2 = 0 then i + 1 else i - 1

/-- The authentication path of leaf `i` in a tree of height `h`: siblings of the nodes on the way up. -/
def authPath (G : Bytes → Bytes) (w len : Nat) (skSeed seed : Bytes) (h i : Nat) : List Bytes :=
  (List.range h).map fun l => node G w len skSeed seed l (sibling (i / 2 ^ l))

/-- The WOTS+ signature of one-time key `i` for chain positions `ds`. -/
def wotsSig (G : Bytes → Bytes) (skSeed seed : Bytes) (i : Nat) (ds : List Nat) : List Bytes :=
  ds.zipIdx.map fun (d, ch) => chain G seed i ch 0 d (wotsSecret G skSeed i ch)

end Qrl.Spec
