import Verif.Spec.Domain
import Verif.Proof.Verify
import Verif.Proof.BasicTree
import Verif.Proof.BdsUpdate
import Verif.Props.Wots
/-!
# C37, C38: hash addresses (src/xmss-alt/hash_address.c, hash.c)
-/

namespace Qrl.Props

open Outcome Qrl.Spec

theorem be_inj {k a b : Nat} (ha : a < 256 ^ k) (hb : b < 256 ^ k) (h : be k a = be k b) : a = b := by
  have := congrArg byteVal h
  rwa [byteVal_be, byteVal_be, Nat.mod_eq_of_lt ha, Nat.mod_eq_of_lt hb] at this

theorem toByte_inj {k a b : Nat} (ha : a < 256 ^ k) (hb : b < 256 ^ k) (h : toByte a k = toByte b k) : a = b := by
  rw [toByte_eq_be, toByte_eq_be] at h
  exact be_inj ha hb h

/-- All words of the address are 32-bit values. -/
def Words32 (a : Adrs) : Prop :=
  a.w0 < 2 ^ 32 ∧ a.w1 < 2 ^ 32 ∧ a.w2 < 2 ^ 32 ∧ a.w3 < 2 ^ 32 ∧
  a.w4 < 2 ^ 32 ∧ a.w5 < 2 ^ 32 ∧ a.w6 < 2 ^ 32 ∧ a.w7 < 2 ^ 32

/-- C37. Serialising an address loses nothing. -/
theorem C37_address_injective (a b : Adrs) (ha : Words32 a) (hb : Words32 b) (h : a.toBytes = b.toBytes) : a = b := by
  obtain ⟨a0, a1, a2, a3, a4, a5, a6, a7⟩ := a
  obtain ⟨b0, b1, b2, b3, b4, b5, b6, b7⟩ := b
  obtain ⟨p0, p1, p2, p3, p4, p5, p6, p7⟩ := ha
  obtain ⟨q0, q1, q2, q3, q4, q5, q6, q7⟩ := hb
  simp only [Adrs.toBytes] at h
  have L : ∀ v, (toByte v 4).length = 4 := fun v => by rw [toByte_eq_be, length_be]
  obtain ⟨h, e7⟩ := List.append_inj' h (by simp [L])
  obtain ⟨h, e6⟩ := List.append_inj' h (by simp [L])
  obtain ⟨h, e5⟩ := List.append_inj' h (by simp [L])
  obtain ⟨h, e4⟩ := List.append_inj' h (by simp [L])
  obtain ⟨h, e3⟩ := List.append_inj' h (by simp [L])
  obtain ⟨h, e2⟩ := List.append_inj' h (by simp [L])
  obtain ⟨e0, e1⟩ := List.append_inj' h (by simp [L])
  have I : ∀ {x y : Nat}, x < 2 ^ 32 → y < 2 ^ 32 → toByte x 4 = toByte y 4 → x = y := fun hx hy e =>
    toByte_inj (by simpa using hx) (by simpa using hy) e
  cases I p0 q0 e0
  cases I p1 q1 e1
  cases I p2 q2 e2
  cases I p3 q3 e3
  cases I p4 q4 e4
  cases I p5 q5 e5
  cases I p6 q6 e6
  cases I p7 q7 e7
  rfl

theorem address_inj {t a b c k t' a' b' c' k' : Nat} (h1 : t < 2 ^ 32 ∧ a < 2 ^ 32 ∧ b < 2 ^ 32 ∧ c < 2 ^ 32 ∧ k < 2 ^ 32)
    (h2 : t' < 2 ^ 32 ∧ a' < 2 ^ 32 ∧ b' < 2 ^ 32 ∧ c' < 2 ^ 32 ∧ k' < 2 ^ 32)
    (h : Spec.address t a b c k = Spec.address t' a' b' c' k') : t = t' ∧ a = a' ∧ b = b' ∧ c = c' ∧ k = k' := by
  rw [← toBytes_eq, ← toBytes_eq] at h
  obtain ⟨p3, p4, p5, p6, p7⟩ := h1
  obtain ⟨q3, q4, q5, q6, q7⟩ := h2
  have := C37_address_injective _ _ ⟨by simp, by simp, by simp, p3, p4, p5, p6, p7⟩
    ⟨by simp, by simp, by simp, q3, q4, q5, q6, q7⟩ h
  injection this with _ _ _ r3 r4 r5 r6 r7
  exact ⟨r3, r4, r5, r6, r7⟩

/-- C37. Two different uses of the public seed have different addresses. -/
theorem C37_uses_distinct (u v : Use) (hu : u.InRange) (hv : v.InRange) (h : u.address = v.address) : u = v := by
  cases u <;> cases v <;> simp only [Use.InRange, Use.address] at hu hv h <;>
    obtain ⟨e1, e2, e3, e4, e5⟩ := address_inj (by omega) (by omega) h <;>
    first
      | omega
      | simp only [e2, e3, e4]

/-- C37. The strings hashed by two different calls of F, H, H_msg or PRF are different. -/
theorem C37_calls_distinct (c d : HCall) (hc : c.WellKeyed) (hd : d.WellKeyed) (h : c.input = d.input) : c = d := by
  have S : ∀ {t t' : Nat} {k k' m m' : Bytes}, t < 4 → t' < 4 → be 32 t ++ k ++ m = be 32 t' ++ k' ++ m' →
      t = t' ∧ k ++ m = k' ++ m' := by
    intro t t' k k' m m' ht ht' e
    rw [List.append_assoc, List.append_assoc] at e
    obtain ⟨e1, e2⟩ := List.append_inj e (by rw [length_be, length_be])
    exact ⟨be_inj (by omega) (by omega) e1, e2⟩
  cases c <;> cases d <;> simp only [HCall.input, HCall.WellKeyed] at hc hd h <;>
    obtain ⟨e1, e2⟩ := S (by omega) (by omega) h <;>
    first
      | omega
      | (obtain ⟨rfl, rfl⟩ := List.append_inj e2 (by omega); rfl)

/-- C37. `prf` is the hash of a `prf` call. -/
theorem C37_prf_call (S : Sha256) (hf : HashFn) (m k : Bytes) : prf S hf m k = hf.prim S (HCall.prf k m).input :=
  prf_eq ..

/-- C37. `h_msg` is the hash of a `msg` call. -/
theorem C37_msg_call (S : Sha256) (hf : HashFn) (m k : Bytes) : hMsg S hf m k = hf.prim S (HCall.msg k m).input :=
  hMsg_eq ..

/-- C37. `hash_f` at the address of chain step (i, ch, j) uses the key and the mask of that step, whatever the last word
of the address was before. -/
theorem C37_f_call (S : Sha256) (hf : HashFn) (x ps : Bytes) (i ch j d : Nat) :
    (hashF S hf x ps ⟨0, 0, 0, 0, i, ch, j, d⟩).1 = hf.prim S (HCall.f
      (PRF (hf.prim S) ps (Use.chainKey i ch j).address)
      (Spec.xor x (PRF (hf.prim S) ps (Use.chainMask i ch j).address))).input := by
  rw [hashF_eq]; rfl

/-- C37. `hash_h` at the address of L-tree node (i, h, j) uses the key and the two masks of that node. -/
theorem C37_ltree_call (S : Sha256) (hf : HashFn) (l r ps : Bytes) (i h j d : Nat) :
    (hashH S hf (l ++ r) ps ⟨0, 0, 0, 1, i, h, j, d⟩).1 = hf.prim S (HCall.h
      (PRF (hf.prim S) ps (Use.ltreeKey i h j).address)
      (Spec.xor (l ++ r) (PRF (hf.prim S) ps (Use.ltreeMaskLeft i h j).address ++
        PRF (hf.prim S) ps (Use.ltreeMaskRight i h j).address))).input := by
  rw [hashH_eq]; rfl

/-- C37. `hash_h` at the address of tree node (h, j) uses the key and the two masks of that node. -/
theorem C37_tree_call (S : Sha256) (hf : HashFn) (l r ps : Bytes) (h j d : Nat) :
    (hashH S hf (l ++ r) ps ⟨0, 0, 0, 2, 0, h, j, d⟩).1 = hf.prim S (HCall.h
      (PRF (hf.prim S) ps (Use.treeKey h j).address)
      (Spec.xor (l ++ r) (PRF (hf.prim S) ps (Use.treeMaskLeft h j).address ++
        PRF (hf.prim S) ps (Use.treeMaskRight h j).address))).input := by
  rw [hashH_eq]; rfl

example : (Use.chainKey 3 66 14).InRange ∧ (Use.treeMaskRight 9 511).InRange := by simp [Use.InRange]

/-- C38. A leaf does not depend on the scratch words of the two addresses passed in, and the words that identify the
one-time key are left as they were. -/
theorem C38_leaf (S : Sha256) (hf : HashFn) (sk : Bytes) (p : XmssParams) (ps : Bytes) (h1 : 1 ≤ p.wots.len)
    (i b c d b2 c2 d2 : Nat) : ∃ b' c' d' b2' c2' d2',
      genLeafWots S hf sk p ps ⟨0, 0, 0, 1, i, b, c, d⟩ ⟨0, 0, 0, 0, i, b2, c2, d2⟩ =
        ok (leaf (hf.prim S) p.wots.w p.wots.len sk ps i,
          ⟨0, 0, 0, 1, i, b', c', d'⟩, ⟨0, 0, 0, 0, i, b2', c2', d2'⟩) :=
  genLeafWots_eq S hf sk p ps h1 i b c d b2 c2 d2

/-- C38. The L-tree of `len` strings does not depend on the scratch words of the address. -/
theorem C38_ltree (S : Sha256) (hf : HashFn) (p : WotsParams) (pk : List Bytes) (ps : Bytes) (i b c d : Nat)
    (h1 : 1 ≤ p.len) (hl : pk.length = p.len) : ∃ b' c' d',
      lTree S hf p pk ps ⟨0, 0, 0, 1, i, b, c, d⟩ =
        ok (ltree (hf.prim S) ps i 0 pk, ⟨0, 0, 0, 1, i, b', c', d'⟩) :=
  lTree_eq S hf p pk ps i b c d h1 hl

/-- C38. The WOTS+ public key does not depend on the scratch words of the address. -/
theorem C38_wots_pkgen (S : Sha256) (hf : HashFn) (p : WotsParams) (seed ps : Bytes) (a a' : Adrs)
    (h : SameKeyAddress a a') : (wotsPkgen S hf p seed ps a).1 = (wotsPkgen S hf p seed ps a').1 := by
  obtain ⟨x0, x1, x2, x3, x4, b, c, d⟩ := a
  obtain ⟨_, _, _, _, _, b', c', d'⟩ := a'
  obtain ⟨rfl, rfl, rfl, rfl, rfl⟩ := h
  rw [wotsPkgen, wotsPkgen, pkgenLoop_gen, pkgenLoop_gen]

/-- C38. A WOTS+ signature does not depend on the scratch words of the address. -/
theorem C38_wots_sign (S : Sha256) (hf : HashFn) (w : Nat) (hw : w = 2 ∨ w = 4 ∨ w = 16 ∨ w = 256) (p : WotsParams)
    (hp : wotsSetParams w = ok p) (msg seed ps : Bytes) (hm : msg.length = 32) (a a' : Adrs) (h : SameKeyAddress a a') :
    ∃ sig b b', wotsSign S hf p msg seed ps a = ok (sig, b) ∧ wotsSign S hf p msg seed ps a' = ok (sig, b') := by
  obtain ⟨_, k, q, hg⟩ := goodParams_of hw hp
  obtain ⟨x0, x1, x2, x3, x4, b, c, d⟩ := a
  obtain ⟨_, _, _, _, _, b', c', d'⟩ := a'
  obtain ⟨rfl, rfl, rfl, rfl, rfl⟩ := h
  have hds := signDigits_eq p k q hg msg hm
  have hlt := digitString_lt p k q hg msg
  have hzip : ∀ y ∈ (expandSeed S hf seed p.len).zip (digitString p k q msg), y.2 ≤ p.w := by
    intro y hy; exact Nat.le_of_lt (hlt y.2 (List.of_mem_zip hy).2)
  have e1 := wotsSignLoop_gen S hf p ps x0 x1 x2 x3 x4 _ hzip 0 b c d
  have e2 := wotsSignLoop_gen S hf p ps x0 x1 x2 x3 x4 _ hzip 0 b' c' d'
  rw [← e1] at e2
  dsimp only
  simp only [wotsSign, hds, ok_bind]
  generalize wotsSignLoop S hf p ps 0 ((expandSeed S hf seed p.len).zip (digitString p k q msg))
    ⟨x0, x1, x2, x3, x4, b, c, d⟩ = r1 at e2
  generalize wotsSignLoop S hf p ps 0 ((expandSeed S hf seed p.len).zip (digitString p k q msg))
    ⟨x0, x1, x2, x3, x4, b', c', d'⟩ = r2 at e2
  exact ⟨r1.1, r1.2, r2.2, rfl, by rw [← e2]⟩

/-- C38. The root of a tree of any height below 32 does not depend on the five last words of the address. -/
theorem C38_treehash (S : Sha256) (hf : HashFn) (p : XmssParams) (sk ps : Bytes) (h1 : 1 ≤ p.wots.len) (h : Nat)
    (hh : h < 32) (a b c d e : Nat) : treehash S hf h 0 sk p ps ⟨0, 0, 0, a, b, c, d, e⟩ =
      ok (node (hf.prim S) p.wots.w p.wots.len sk ps h 0) :=
  treehash_eq S hf p sk ps h1 h hh a b c d e

/-- C38. Nor do the root and the path computed by the simple signer. -/
theorem C38_authpath (S : Sha256) (hf : HashFn) (p : XmssParams) (sk ps : Bytes)
    (h1 : 1 ≤ p.wots.len) (hh : p.h ≤ 25) (idx : Nat) (hidx : idx < 2 ^ p.h) (a b c d e : Nat) :
    computeAuthpathWots S hf idx sk p ps ⟨0, 0, 0, a, b, c, d, e⟩ =
      ok (node (hf.prim S) p.wots.w p.wots.len sk ps p.h 0, authPath (hf.prim S) p.wots.w p.wots.len sk ps p.h idx) :=
  computeAuthpathWots_eq S hf p sk ps h1 hh idx hidx a b c d e

/-- Two addresses of the same tree. -/
def SameTree (a b : Adrs) : Prop := a.w0 = b.w0 ∧ a.w1 = b.w1 ∧ a.w2 = b.w2

theorem derive_congr {a b : Adrs} (h : SameTree a b) (t : Nat) : a.derive t = b.derive t := by
  obtain ⟨h0, h1, h2⟩ := h
  simp only [Adrs.derive, h0, h1, h2]

/-- C38. In every state, advancing the traversal by one leaf does not depend on the five last words of the address: the
leftovers of signing (the WOTS+ address) and a cleared address (when skipping) give the same. -/
theorem C38_bds_round (S : Sha256) (hf : HashFn) (st : BdsState) (t : Nat) (sk : Bytes) (p : XmssParams) (ps : Bytes)
    (a b : Adrs) (h : SameTree a b) : bdsRound S hf st t sk p ps a = bdsRound S hf st t sk p ps b := by
  unfold bdsRound
  simp only [derive_congr h]

/-- C38. The same for the tree-hash updates. -/
theorem C38_bds_update (S : Sha256) (hf : HashFn) (sk : Bytes) (p : XmssParams) (ps : Bytes)
    (a b : Adrs) (h : SameTree a b) (n : Nat) : ∀ st : BdsState,
    bdsTreehashUpdate S hf sk p ps a n st = bdsTreehashUpdate S hf sk p ps b n st := by
  have hu : ∀ k st, treehashUpdate S hf k st sk p ps a = treehashUpdate S hf k st sk p ps b := by
    intro k st
    unfold treehashUpdate
    simp only [derive_congr h]
  induction n with
  | zero => intro st; rfl
  | succ n ih =>
    intro st
    unfold bdsTreehashUpdate
    simp only [hu, ih]

example : SameKeyAddress ⟨0, 0, 0, 0, 5, 66, 14, 1⟩ ⟨0, 0, 0, 0, 5, 0, 0, 0⟩ ∧
    SameTree ⟨0, 0, 0, 0, 5, 66, 14, 1⟩ {} := by simp [SameKeyAddress, SameTree]

end Qrl.Props
