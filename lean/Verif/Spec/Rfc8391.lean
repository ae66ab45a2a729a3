import Verif.Model.Basic
/-!
# RFC 8391, algorithm by algorithm (n = 32)

A transcription of the pseudocode of RFC 8391 ("XMSS: eXtended Merkle Signature Scheme", May 2018), with its own hash addresses,
loops and variables. It shares no definition with the model of the code, nor with the specification of `Spec/Xmss` and `Spec/Sig`
that the other properties use. `G` is the keyed family's underlying function with 32-byte output (5.1: SHA-256, or SHAKE128 with
256 bits of output; in NIST SP 800-208 also SHAKE256 with 256 bits of output).

The pseudocode passes `ADRS` around; here a call gets a copy, and the caller goes on with its own. `Option` is the pseudocode's `NULL`.
-/

namespace Qrl.Rfc8391

/-- `toByte(x, y)`, 2.4: the `y`-byte string with the big-endian value of `x`. -/
def toByte (x y : Nat) : Bytes := (List.range y).map fun i => UInt8.ofNat (x / 256 ^ (y - 1 - i))

/-- The number a byte string stands for, big-endian. -/
def toInt (b : Bytes) : Nat := b.foldl (fun v x => v * 256 + x.toNat) 0

/-- `XOR` of two strings. -/
def xor (a b : Bytes) : Bytes := List.zipWith (· ^^^ ·) a b

/-- `ADRS`, 2.5: layer address (4 bytes), tree address (8), type (4), and four more words whose meaning depends on the type. -/
structure Address where
  layer : Nat := 0
  tree : Nat := 0
  type : Nat := 0
  /-- OTS address, L-tree address, or padding -/
  word1 : Nat := 0
  /-- chain address, or tree height -/
  word2 : Nat := 0
  /-- hash address, or tree index -/
  word3 : Nat := 0
  keyAndMask : Nat := 0

namespace Address
/-- The 32 bytes of the address. -/
def bytes (a : Address) : Bytes :=
  toByte a.layer 4 ++ toByte a.tree 8 ++ toByte a.type 4 ++ toByte a.word1 4 ++ toByte a.word2 4 ++ toByte a.word3 4 ++
    toByte a.keyAndMask 4
/-- Setting the type sets the words after it to zero, 2.5. -/
def setType (a : Address) (t : Nat) : Address := { layer := a.layer, tree := a.tree, type := t }
def setOTSAddress (a : Address) (v : Nat) : Address := { a with word1 := v }
def setLTreeAddress (a : Address) (v : Nat) : Address := { a with word1 := v }
def setChainAddress (a : Address) (v : Nat) : Address := { a with word2 := v }
def setTreeHeight (a : Address) (v : Nat) : Address := { a with word2 := v }
def setHashAddress (a : Address) (v : Nat) : Address := { a with word3 := v }
def setTreeIndex (a : Address) (v : Nat) : Address := { a with word3 := v }
def setKeyAndMask (a : Address) (v : Nat) : Address := { a with keyAndMask := v }
end Address

section
variable (G : Bytes → Bytes)

/-! ### 5.1, hash functions -/

def F (KEY M : Bytes) : Bytes := G (toByte 0 32 ++ KEY ++ M)
def H (KEY M : Bytes) : Bytes := G (toByte 1 32 ++ KEY ++ M)
def H_msg (KEY M : Bytes) : Bytes := G (toByte 2 32 ++ KEY ++ M)
def PRF (KEY M : Bytes) : Bytes := G (toByte 3 32 ++ KEY ++ M)

/-! ### 3.1.1, parameters of WOTS+ -/

/-- `len_1 = ceil(8n / lg(w))`. -/
def len_1 (w : Nat) : Nat := (256 + (Nat.log2 w - 1)) / Nat.log2 w
/-- `len_2 = floor(lg(len_1 * (w - 1)) / lg(w)) + 1`. -/
def len_2 (w : Nat) : Nat := Nat.log2 (len_1 w * (w - 1)) / Nat.log2 w + 1
/-- `len = len_1 + len_2`. -/
def len (w : Nat) : Nat := len_1 w + len_2 w

/-- The loop of algorithm 1, with `n` digits to go. -/
def base_w_loop (X : Bytes) (w : Nat) : (n inp total bits : Nat) → List Nat
  | 0, _, _, _ => []
  | n + 1, inp, total, bits =>
    let (inp, total, bits) := if bits = 0 then (inp + 1, (X.getD inp 0).toNat, bits + 8) else (inp, total, bits)
    let bits := bits - Nat.log2 w
    ((total >>> bits) &&& (w - 1)) :: base_w_loop X w n inp total bits

/-- Algorithm 1, `base_w(X, w, out_len)`. -/
def base_w (X : Bytes) (w out_len : Nat) : List Nat := base_w_loop X w out_len 0 0 0

/-- Algorithm 2, `chain(X, i, s, SEED, ADRS)`. -/
def chain (w : Nat) (X : Bytes) (i : Nat) (SEED : Bytes) (ADRS : Address) : (s : Nat) → Option Bytes
  | 0 => some X
  | s + 1 =>
    if i + (s + 1) > w - 1 then none
    else match chain w X i SEED ADRS s with
      | none => none
      | some tmp =>
        let ADRS := ADRS.setHashAddress (i + (s + 1) - 1)
        let KEY := PRF G SEED (ADRS.setKeyAndMask 0).bytes
        let BM := PRF G SEED (ADRS.setKeyAndMask 1).bytes
        some (F G KEY (xor tmp BM))

/-- The digits of algorithms 5 and 6: message in base `w` and checksum. -/
def digits (w : Nat) (M : Bytes) : List Nat :=
  let msg := base_w M w (len_1 w)
  let csum := (List.range (len_1 w)).foldl (fun csum i => csum + (w - 1 - msg.getD i 0)) 0
  let csum := csum <<< (8 - (len_2 w * Nat.log2 w) % 8)
  let len_2_bytes := (len_2 w * Nat.log2 w + 7) / 8
  msg ++ base_w (toByte csum len_2_bytes) w (len_2 w)

/-- Algorithm 4, `WOTS_genPK`. -/
def WOTS_genPK (w : Nat) (sk : List Bytes) (SEED : Bytes) (ADRS : Address) : Option (List Bytes) :=
  (List.range (len w)).mapM fun i => chain G w (sk.getD i []) 0 SEED (ADRS.setChainAddress i) (w - 1)

/-- Algorithm 5, `WOTS_sign`. -/
def WOTS_sign (w : Nat) (M : Bytes) (sk : List Bytes) (SEED : Bytes) (ADRS : Address) : Option (List Bytes) :=
  (List.range (len w)).mapM fun i => chain G w (sk.getD i []) 0 SEED (ADRS.setChainAddress i) ((digits w M).getD i 0)

/-- Algorithm 6, `WOTS_pkFromSig`. -/
def WOTS_pkFromSig (w : Nat) (M : Bytes) (sig : List Bytes) (ADRS : Address) (SEED : Bytes) : Option (List Bytes) :=
  (List.range (len w)).mapM fun i =>
    chain G w (sig.getD i []) ((digits w M).getD i 0) SEED (ADRS.setChainAddress i) (w - 1 - (digits w M).getD i 0)

/-- Algorithm 7, `RAND_HASH`. -/
def RAND_HASH (LEFT RIGHT SEED : Bytes) (ADRS : Address) : Bytes :=
  let KEY := PRF G SEED (ADRS.setKeyAndMask 0).bytes
  let BM_0 := PRF G SEED (ADRS.setKeyAndMask 1).bytes
  let BM_1 := PRF G SEED (ADRS.setKeyAndMask 2).bytes
  H G KEY (xor LEFT BM_0 ++ xor RIGHT BM_1)

/-- The `while` loop of algorithm 8. -/
def ltree_loop (SEED : Bytes) (len' : Nat) (pk : List Bytes) (ADRS : Address) : Bytes :=
  if 1 < len' then
    let pk := (List.range (len' / 2)).foldl
      (fun pk i => pk.set i (RAND_HASH G (pk.getD (2 * i) []) (pk.getD (2 * i + 1) []) SEED (ADRS.setTreeIndex i))) pk
    let pk := if len' % 2 = 1 then pk.set (len' / 2) (pk.getD (len' - 1) []) else pk
    ltree_loop SEED ((len' + 1) / 2) pk (ADRS.setTreeHeight (ADRS.word2 + 1))
  else pk.getD 0 []
termination_by len'

/-- Algorithm 8, `ltree`. -/
def ltree (w : Nat) (pk : List Bytes) (SEED : Bytes) (ADRS : Address) : Bytes :=
  ltree_loop G SEED (len w) pk (ADRS.setTreeHeight 0)

/-- The `while` loop of algorithm 9 and the push after it: `height` is the height of `node`, the stack holds nodes with their
heights. -/
def treeHash_while (SEED : Bytes) : (stack : List (Bytes × Nat)) → (node : Bytes) → (height : Nat) → Address → List (Bytes × Nat)
  | [], node, height, _ => [(node, height)]
  | (top, t) :: stack, node, height, ADRS =>
    if t = height then
      let ADRS := ADRS.setTreeIndex ((ADRS.word3 - 1) / 2)
      treeHash_while SEED stack (RAND_HASH G top node SEED ADRS) (height + 1) (ADRS.setTreeHeight (ADRS.word2 + 1))
    else (node, height) :: (top, t) :: stack

/-- The body of the `for` loop of algorithm 9. `wots_sk` is `getWOTS_SK(SK, ·)`. -/
def treeHash_step (w : Nat) (wots_sk : Nat → List Bytes) (SEED : Bytes) (s : Nat) (ADRS : Address) (stack : List (Bytes × Nat))
    (i : Nat) : Option (List (Bytes × Nat)) := do
  let ADRS := (ADRS.setType 0).setOTSAddress (s + i)
  let pk ← WOTS_genPK G w (wots_sk (s + i)) SEED ADRS
  let ADRS := (ADRS.setType 1).setLTreeAddress (s + i)
  let node := ltree G w pk SEED ADRS
  let ADRS := ((ADRS.setType 2).setTreeHeight 0).setTreeIndex (i + s)
  some (treeHash_while G SEED stack node 0 ADRS)

/-- Algorithm 9, `treeHash(SK, s, t, ADRS)`. -/
def treeHash (w : Nat) (wots_sk : Nat → List Bytes) (SEED : Bytes) (s t : Nat) (ADRS : Address) : Option Bytes :=
  if s % 2 ^ t ≠ 0 then none
  else do
    let stack ← (List.range (2 ^ t)).foldlM (treeHash_step G w wots_sk SEED s ADRS) []
    stack.head?.map (·.1)

/-- A secret key: index, one-time keys, `SK_PRF`, `root` and `SEED`, 4.1.3. How the one-time keys are made is left to the
implementation (4.1.3, 4.1.11). -/
structure SecretKey where
  idx : Nat
  wots_sk : Nat → List Bytes
  SK_PRF : Bytes
  root : Bytes
  SEED : Bytes

/-- Algorithm 10, `XMSS_keyGen`, from the random values: the secret key; the public key is `root` and `SEED` after the OID. -/
def XMSS_keyGen (w h : Nat) (wots_sk : Nat → List Bytes) (SK_PRF SEED : Bytes) : Option SecretKey := do
  let root ← treeHash G w wots_sk SEED 0 h {}
  some { idx := 0, wots_sk := wots_sk, SK_PRF := SK_PRF, root := root, SEED := SEED }

/-- `buildAuth(SK, i, ADRS)`, 4.1.9: `k = floor(i / 2^j) XOR 1`. -/
def buildAuth (w h : Nat) (SK : SecretKey) (i : Nat) (ADRS : Address) : Option (List Bytes) :=
  (List.range h).mapM fun j => treeHash G w SK.wots_sk SK.SEED (((i / 2 ^ j) ^^^ 1) * 2 ^ j) j ADRS

/-- Algorithm 11, `treeSig`: `sig_ots || auth`. -/
def treeSig (w h : Nat) (M' : Bytes) (SK : SecretKey) (idx_sig : Nat) (ADRS : Address) : Option Bytes := do
  let auth ← buildAuth G w h SK idx_sig ADRS
  let ADRS := (ADRS.setType 0).setOTSAddress idx_sig
  let sig_ots ← WOTS_sign G w M' (SK.wots_sk idx_sig) SK.SEED ADRS
  some (sig_ots.flatten ++ auth.flatten)

/-- Algorithm 12, `XMSS_sign`: the signature `idx_sig || r || sig_ots || auth` and the secret key with the next index. -/
def XMSS_sign (w h : Nat) (M : Bytes) (SK : SecretKey) : Option (Bytes × SecretKey) := do
  let idx_sig := SK.idx
  let r := PRF G SK.SK_PRF (toByte idx_sig 32)
  let M' := H_msg G (r ++ SK.root ++ toByte idx_sig 32) M
  let t ← treeSig G w h M' SK idx_sig {}
  some (toByte idx_sig 4 ++ r ++ t, { SK with idx := idx_sig + 1 })

/-- The loop of algorithm 13 over `auth[k]`. -/
def rootFromSig_loop (idx_sig : Nat) (SEED : Bytes) : (k : Nat) → (auth : List Bytes) → (node : Bytes) → Address → Bytes
  | _, [], node, _ => node
  | k, a :: auth, node, ADRS =>
    let ADRS := ADRS.setTreeHeight k
    if (idx_sig / 2 ^ k) % 2 = 0 then
      let ADRS := ADRS.setTreeIndex (ADRS.word3 / 2)
      rootFromSig_loop idx_sig SEED (k + 1) auth (RAND_HASH G node a SEED ADRS) ADRS
    else
      let ADRS := ADRS.setTreeIndex ((ADRS.word3 - 1) / 2)
      rootFromSig_loop idx_sig SEED (k + 1) auth (RAND_HASH G a node SEED ADRS) ADRS

/-- Algorithm 13, `XMSS_rootFromSig`. -/
def XMSS_rootFromSig (w : Nat) (idx_sig : Nat) (sig_ots auth : List Bytes) (M' SEED : Bytes) (ADRS : Address) : Option Bytes := do
  let ADRS := (ADRS.setType 0).setOTSAddress idx_sig
  let pk_ots ← WOTS_pkFromSig G w M' sig_ots ADRS SEED
  let ADRS := (ADRS.setType 1).setLTreeAddress idx_sig
  let node := ltree G w pk_ots SEED ADRS
  let ADRS := (ADRS.setType 2).setTreeIndex idx_sig
  some (rootFromSig_loop G idx_sig SEED 0 auth node ADRS)

/-- Figure in 4.1.8: the fields of a signature of `4 + 32 + 32 * len + 32 * h` bytes. -/
structure Fields where
  idx_sig : Nat
  r : Bytes
  sig_ots : List Bytes
  auth : List Bytes

/-- Cutting a signature into its fields, 4.1.8. -/
def fields (w h : Nat) (Sig : Bytes) : Fields where
  idx_sig := toInt (Sig.take 4)
  r := (Sig.drop 4).take 32
  sig_ots := (List.range (len w)).map fun j => (Sig.drop (36 + 32 * j)).take 32
  auth := (List.range h).map fun j => (Sig.drop (36 + 32 * len w + 32 * j)).take 32

/-- Algorithm 14, `XMSS_verify(Sig, M, PK)`. -/
def XMSS_verify (w h : Nat) (Sig M root SEED : Bytes) : Bool :=
  let f := fields w h Sig
  let M' := H_msg G (f.r ++ root ++ toByte f.idx_sig 32) M
  match XMSS_rootFromSig G w f.idx_sig f.sig_ots f.auth M' SEED {} with
  | some node => node == root
  | none => false

/-- One-time keys from a seed `S`: `sk[j]` is `PRF` of `toByte(j, 32)` under a per-leaf seed (3.1.7). The per-leaf seed is `PRF` of
the leaf's OTS address under `S`, as in the reference implementation of the RFC's authors; 4.1.11 would use `toByte(i, 32)`. It leaves
the choice to the implementation, as no other party ever computes these values. -/
def pseudorandomKeys (w : Nat) (S : Bytes) (i : Nat) : List Bytes :=
  (List.range (len w)).map fun j =>
    PRF G (PRF G S ((({} : Address).setType 0).setOTSAddress i).bytes) (toByte j 32)

end

/-! ### Registered parameter sets with n = 32 and w = 16 -/

/-- The hash of a parameter set. -/
inductive Hash where
  | SHA2
  | SHAKE128
  | SHAKE256
  deriving DecidableEq, Repr

/-- Hash and height of an OID: 8 (the IANA registry "XMSS Signatures"; 0x10 to 0x12 from NIST SP 800-208). -/
def parameters : Nat → Option (Hash × Nat)
  | 0x01 => some (.SHA2, 10)      -- XMSS-SHA2_10_256
  | 0x02 => some (.SHA2, 16)      -- XMSS-SHA2_16_256
  | 0x03 => some (.SHA2, 20)      -- XMSS-SHA2_20_256
  | 0x07 => some (.SHAKE128, 10)  -- XMSS-SHAKE_10_256
  | 0x08 => some (.SHAKE128, 16)  -- XMSS-SHAKE_16_256
  | 0x09 => some (.SHAKE128, 20)  -- XMSS-SHAKE_20_256
  | 0x10 => some (.SHAKE256, 10)  -- XMSS-SHAKE256_10_256
  | 0x11 => some (.SHAKE256, 16)  -- XMSS-SHAKE256_16_256
  | 0x12 => some (.SHAKE256, 20)  -- XMSS-SHAKE256_20_256
  | _ => none

/-- Verification with a public key `OID || root || SEED`, 4.1.7: a key with an unknown OID or another length, or a signature of
another length, is not accepted. -/
def verify (G : Hash → Bytes → Bytes) (PK M Sig : Bytes) : Bool :=
  match parameters (toInt (PK.take 4)) with
  | some (hash, h) =>
    PK.length == 68 && Sig.length == 4 + 32 + 32 * len 16 + 32 * h &&
      XMSS_verify (G hash) 16 h Sig M ((PK.drop 4).take 32) (PK.drop 36)
  | none => false

end Qrl.Rfc8391
