import Verif.Spec.Sig
/-!
# Specification: which hash calls an XMSS computation makes

A hash call is one of the four keyed functions of RFC 8391 (5.1) with its key and its argument; `input` is the string
that is hashed. The functions `…Calls` list the calls made by the functions of `Spec.Xmss` and `Spec.Sig` with the same
name (`calls_complete` theorems in `Props.Binding` show that no other value of the hash function matters).
-/

namespace Qrl.Spec

/-- A call of one of the four keyed hash functions. -/
inductive HCall where
  | f (key m : Bytes)
  | h (key m : Bytes)
  | msg (key m : Bytes)
  | prf (key m : Bytes)
  deriving DecidableEq, Repr

/-- The hashed string (RFC 8391, 5.1). -/
def HCall.input : HCall → Bytes
  | .f key m => be 32 0 ++ key ++ m
  | .h key m => be 32 1 ++ key ++ m
  | .msg key m => be 32 2 ++ key ++ m
  | .prf key m => be 32 3 ++ key ++ m

/-- The keys have the lengths of RFC 8391 (n = 32). -/
def HCall.WellKeyed : HCall → Prop
  | .f key _ => key.length = 32
  | .h key _ => key.length = 32
  | .msg key _ => key.length = 96
  | .prf key _ => key.length = 32

/-- Among the listed calls there are two that hash different strings to the same value. -/
def Collides (G : Bytes → Bytes) (cs : List HCall) : Prop :=
  ∃ c ∈ cs, ∃ c' ∈ cs, c.input ≠ c'.input ∧ G c.input = G c'.input

def FCalls (G : Bytes → Bytes) (seed : Bytes) (type a b c : Nat) (x : Bytes) : List HCall :=
  [.prf seed (address type a b c 0), .prf seed (address type a b c 1),
    .f (PRF G seed (address type a b c 0)) (xor x (PRF G seed (address type a b c 1)))]

def HCalls (G : Bytes → Bytes) (seed : Bytes) (type a b c : Nat) (l r : Bytes) : List HCall :=
  [.prf seed (address type a b c 0), .prf seed (address type a b c 1), .prf seed (address type a b c 2),
    .h (PRF G seed (address type a b c 0))
      (xor (l ++ r) (PRF G seed (address type a b c 1) ++ PRF G seed (address type a b c 2)))]

def chainCalls (G : Bytes → Bytes) (seed : Bytes) (i ch : Nat) : Nat → Nat → Bytes → List HCall
  | _, 0, _ => []
  | start, n + 1, x => FCalls G seed 0 i ch start x ++ chainCalls G seed i ch (start + 1) n (F G seed 0 i ch start x)

def wotsSecretCalls (G : Bytes → Bytes) (skSeed : Bytes) (i ch : Nat) : List HCall :=
  [.prf skSeed (address 0 i 0 0 0), .prf (PRF G skSeed (address 0 i 0 0 0)) (be 32 ch)]

def wotsPkCalls (G : Bytes → Bytes) (w len : Nat) (skSeed seed : Bytes) (i : Nat) : List HCall :=
  (List.range len).flatMap fun ch =>
    wotsSecretCalls G skSeed i ch ++ chainCalls G seed i ch 0 (w - 1) (wotsSecret G skSeed i ch)

def pairUpCalls (G : Bytes → Bytes) (seed : Bytes) (i height : Nat) : Nat → List Bytes → List HCall
  | j, a :: b :: rest => HCalls G seed 1 i height j a b ++ pairUpCalls G seed i height (j + 1) rest
  | _, _ => []

def ltreeCalls (G : Bytes → Bytes) (seed : Bytes) (i height : Nat) (l : List Bytes) : List HCall :=
  if _h : 1 < l.length then pairUpCalls G seed i height 0 l ++
    ltreeCalls G seed i (height + 1) (pairUp (fun j => H G seed 1 i height j) 0 l)
  else []
termination_by l.length
decreasing_by rw [length_pairUp]; omega

def leafCalls (G : Bytes → Bytes) (w len : Nat) (skSeed seed : Bytes) (i : Nat) : List HCall :=
  wotsPkCalls G w len skSeed seed i ++ ltreeCalls G seed i 0 (wotsPk G w len skSeed seed i)

def nodeCalls (G : Bytes → Bytes) (w len : Nat) (skSeed seed : Bytes) : Nat → Nat → List HCall
  | 0, i => leafCalls G w len skSeed seed i
  | l + 1, i => nodeCalls G w len skSeed seed l (2 * i) ++ nodeCalls G w len skSeed seed l (2 * i + 1) ++
      HCalls G seed 2 0 l i (node G w len skSeed seed l (2 * i)) (node G w len skSeed seed l (2 * i + 1))

def wotsPkFromSigCalls (G : Bytes → Bytes) (w : Nat) (seed : Bytes) (i : Nat) (sig : List Bytes) (ds : List Nat) :
    List HCall :=
  (sig.zip ds).zipIdx.flatMap fun (x, ch) => chainCalls G seed i ch x.2 (w - 1 - x.2) x.1

def climbCalls (G : Bytes → Bytes) (seed : Bytes) : Nat → Nat → Bytes → List Bytes → List HCall
  | _, _, _, [] => []
  | l, i, x, a :: path =>
    (if i % 2 = 0 then HCalls G seed 2 0 l (i / 2) x a else HCalls G seed 2 0 l (i / 2) a x) ++
    climbCalls G seed (l + 1) (i / 2) (if i % 2 = 0 then H G seed 2 0 l (i / 2) x a else H G seed 2 0 l (i / 2) a x) path

def rootFromSigCalls (G : Bytes → Bytes) (w h : Nat) (root seed msg sig : Bytes) : List HCall :=
  let idx := byteVal (sig.take 4)
  let ds := wotsDigits w (digest G ((sig.drop 4).take 32) root idx msg)
  let wpk := wotsPkFromSig G w seed idx (chunks sig 36 (lenW w)) ds
  .msg ((sig.drop 4).take 32 ++ root ++ be 32 idx) msg ::
    wotsPkFromSigCalls G w seed idx (chunks sig 36 (lenW w)) ds ++
    ltreeCalls G seed idx 0 wpk ++
    climbCalls G seed 0 idx (ltree G seed idx 0 wpk) (chunks sig (36 + 32 * lenW w) h)

end Qrl.Spec
