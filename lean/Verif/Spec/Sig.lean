import Verif.Spec.Xmss
/-!
# Specification of XMSS signatures and their verification, in the style of RFC 8391 (n = 32)
-/

namespace Qrl.Spec

/-- The number written by a byte string, most significant byte first. -/
def byteVal (m : Bytes) : Nat := m.foldl (fun v b => v * 256 + b.toNat) 0

/-- The `j`-th group of `lg` bits of a byte string. -/
def digit (lg : Nat) (m : Bytes) (j : Nat) : Nat := byteVal m / 2 ^ (8 * m.length - lg * (j + 1)) % 2 ^ lg

/-- log2 of the Winternitz parameter. -/
def lgW (w : Nat) : Nat := Nat.log2 w
/-- Number of message chains (RFC 8391, 3.1.1). -/
def len1 (w : Nat) : Nat := 256 / lgW w
/-- Number of checksum chains (RFC 8391, 3.1.1). -/
def len2 (w : Nat) : Nat := Nat.log2 (len1 w * (w - 1)) / lgW w + 1
/-- Number of chains. -/
def lenW (w : Nat) : Nat := len1 w + len2 w

/-- The chain positions of a 32-byte digest: its digits, then those of the checksum (RFC 8391,
algorithm 5). -/
def wotsDigits (w : Nat) (m : Bytes) : List Nat :=
  let ms := (List.range (len1 w)).map (digit (lgW w) m)
  let csum := (ms.map fun d => w - 1 - d).sum
  let cs := be ((len2 w * lgW w + 7) / 8) (csum * 2 ^ (8 - len2 w * lgW w % 8))
  ms ++ (List.range (len2 w)).map (digit (lgW w) cs)

/-- The chain ends recovered from a WOTS+ signature (RFC 8391, algorithm 6). -/
def wotsPkFromSig (G : Bytes → Bytes) (w : Nat) (seed : Bytes) (i : Nat) (sig : List Bytes) (ds : List Nat) :
    List Bytes :=
  (sig.zip ds).zipIdx.map fun (x, ch) => chain G seed i ch x.2 (w - 1 - x.2) x.1

/-- Walking up the tree from node `i` of height `l` with value `x`, along sibling values (RFC 8391,
algorithm 13). -/
def climb (G : Bytes → Bytes) (seed : Bytes) : Nat → Nat → Bytes → List Bytes → Bytes
  | _, _, x, [] => x
  | l, i, x, a :: path =>
    climb G seed (l + 1) (i / 2) (if i % 2 = 0 then H G seed 2 0 l (i / 2) x a else H G seed 2 0 l (i / 2) a x) path

/-- `k` consecutive 32-byte strings at offset `off`. -/
def chunks (m : Bytes) (off k : Nat) : List Bytes :=
  (List.range k).map fun j => (m.drop (off + 32 * j)).take 32

/-- The digest that is signed (RFC 8391, algorithm 12). -/
def digest (G : Bytes → Bytes) (r root : Bytes) (idx : Nat) (msg : Bytes) : Bytes :=
  Hmsg G (r ++ root ++ be 32 idx) msg

/-- The tree root recomputed from a signature (RFC 8391, algorithms 13 and 14):
index (4 bytes) ‖ r (32) ‖ WOTS+ signature (32·len) ‖ authentication path (32·h). -/
def rootFromSig (G : Bytes → Bytes) (w h : Nat) (root seed msg sig : Bytes) : Bytes :=
  let idx := byteVal (sig.take 4)
  let ds := wotsDigits w (digest G ((sig.drop 4).take 32) root idx msg)
  let wpk := wotsPkFromSig G w seed idx (chunks sig 36 (lenW w)) ds
  climb G seed 0 idx (ltree G seed idx 0 wpk) (chunks sig (36 + 32 * lenW w) h)

/-- The signature of `msg` under one-time key `idx` (RFC 8391, algorithm 12). -/
def signature (G : Bytes → Bytes) (w h : Nat) (skSeed skPrf seed : Bytes) (idx : Nat) (msg : Bytes) : Bytes :=
  let r := PRF G skPrf (be 32 idx)
  let root := node G w (lenW w) skSeed seed h 0
  be 4 idx ++ r ++ (wotsSig G skSeed seed idx (wotsDigits w (digest G r root idx msg))).flatten ++
    (authPath G w (lenW w) skSeed seed h idx).flatten

end Qrl.Spec
