import Verif.Proof.Binding
import Verif.Props.Fast
/-!
# C25: what two accepted signatures have in common

"There is a collision" alone would be a vacuous conclusion (a hash function with 32-byte output has collisions). The
conclusions here say that two of the listed hash calls collide: calls made while verifying the signatures at hand, or
while generating the key. `C25_calls_complete` shows that the lists are the calls that matter.
-/

namespace Qrl.Props

open Outcome Qrl.Spec

/-- The value for chain `ch` in a signature. -/
def sigChain (sig : Bytes) (ch : Nat) : Bytes := (sig.drop (36 + 32 * ch)).take 32

/-- The authentication path in a signature for a tree of height `h`. -/
def sigPath (w h : Nat) (sig : Bytes) : List Bytes := chunks sig (36 + 32 * lenW w) h

/-- The chain positions that belong to a message and a signature of it. -/
def sigDigits (G : Bytes → Bytes) (w : Nat) (root msg sig : Bytes) : List Nat :=
  wotsDigits w (digest G ((sig.drop 4).take 32) root (sigIndex sig) msg)

/-- The hash calls made by `verify` for a well-formed key and signature. -/
def verifyCalls (G : Bytes → Bytes) (w : Nat) (msg sig epk : Bytes) : List HCall :=
  rootFromSigCalls G w (keyHeight epk) (keyRoot epk) (keySeed epk) msg sig

/-- Hashing the chain `ch` of key `i` forward from position `d` with value `x` gives `y` at position `e`. -/
def LeadsTo (G : Bytes → Bytes) (seed : Bytes) (i ch d : Nat) (x : Bytes) (e : Nat) (y : Bytes) : Prop :=
  d ≤ e ∧ chain G seed i ch d (e - d) x = y

/-! ### The lists of calls are complete -/

theorem agree_append {G G' : Bytes → Bytes} {cs ds : List HCall} (h : ∀ c ∈ cs ++ ds, G c.input = G' c.input) :
    (∀ c ∈ cs, G c.input = G' c.input) ∧ (∀ c ∈ ds, G c.input = G' c.input) :=
  ⟨fun c hc => h c (by simp [hc]), fun c hc => h c (by simp [hc])⟩

theorem F_agree {G G' : Bytes → Bytes} {seed : Bytes} {t a b c : Nat} {x : Bytes}
    (h : ∀ k ∈ FCalls G seed t a b c x, G k.input = G' k.input) : F G seed t a b c x = F G' seed t a b c x := by
  simp only [FCalls, List.mem_cons, List.not_mem_nil, or_false, forall_eq_or_imp, forall_eq] at h
  obtain ⟨h1, h2, h3⟩ := h
  have e1 : PRF G seed (address t a b c 0) = PRF G' seed (address t a b c 0) := h1
  have e2 : PRF G seed (address t a b c 1) = PRF G' seed (address t a b c 1) := h2
  have e3 : F G seed t a b c x = G' _ := h3
  rw [e3, F, HCall.input, e1, e2]

theorem H_agree {G G' : Bytes → Bytes} {seed : Bytes} {t a b c : Nat} {l r : Bytes}
    (h : ∀ k ∈ HCalls G seed t a b c l r, G k.input = G' k.input) : H G seed t a b c l r = H G' seed t a b c l r := by
  simp only [HCalls, List.mem_cons, List.not_mem_nil, or_false, forall_eq_or_imp, forall_eq] at h
  obtain ⟨h1, h2, h3, h4⟩ := h
  have e1 : PRF G seed (address t a b c 0) = PRF G' seed (address t a b c 0) := h1
  have e2 : PRF G seed (address t a b c 1) = PRF G' seed (address t a b c 1) := h2
  have e3 : PRF G seed (address t a b c 2) = PRF G' seed (address t a b c 2) := h3
  have e4 : H G seed t a b c l r = G' _ := h4
  rw [e4, H, HCall.input, e1, e2, e3]

theorem chain_agree {G G' : Bytes → Bytes} {seed : Bytes} {i ch : Nat} (n : Nat) : ∀ (s : Nat) (x : Bytes),
    (∀ k ∈ chainCalls G seed i ch s n x, G k.input = G' k.input) →
    chain G seed i ch s n x = chain G' seed i ch s n x := by
  induction n with
  | zero => intro s x _; rfl
  | succ n ih =>
    intro s x h
    obtain ⟨h1, h2⟩ := agree_append h
    simp only [chain]
    rw [← F_agree h1, ih _ _ h2]

theorem pairUp_agree {G G' : Bytes → Bytes} {seed : Bytes} {i ht : Nat} : ∀ (l : List Bytes) (j : Nat),
    (∀ k ∈ pairUpCalls G seed i ht j l, G k.input = G' k.input) →
    pairUp (fun j => H G seed 1 i ht j) j l = pairUp (fun j => H G' seed 1 i ht j) j l
  | [], _, _ => rfl
  | [_], _, _ => rfl
  | a :: b :: l, j, h => by
    obtain ⟨h1, h2⟩ := agree_append h
    simp only [pairUp]
    rw [H_agree h1, pairUp_agree l (j + 1) h2]

theorem ltree_agree {G G' : Bytes → Bytes} {seed : Bytes} {i : Nat} (n : Nat) : ∀ (ht : Nat) (l : List Bytes),
    l.length = n → (∀ k ∈ ltreeCalls G seed i ht l, G k.input = G' k.input) →
    ltree G seed i ht l = ltree G' seed i ht l := by
  induction n using Nat.strongRecOn with
  | _ n ih =>
    intro ht l hl h
    rw [ltreeCalls] at h
    rw [ltree, ltree.eq_def G']
    by_cases h1 : 1 < l.length
    · simp only [h1, dite_true] at h ⊢
      obtain ⟨ha, hb⟩ := agree_append h
      rw [← pairUp_agree l 0 ha]
      exact ih _ (by rw [length_pairUp]; omega) _ _ rfl hb
    · simp only [h1, dite_false]

theorem climb_agree {G G' : Bytes → Bytes} {seed : Bytes} : ∀ (path : List Bytes) (l i : Nat) (x : Bytes),
    (∀ k ∈ climbCalls G seed l i x path, G k.input = G' k.input) →
    climb G seed l i x path = climb G' seed l i x path
  | [], _, _, _, _ => rfl
  | a :: path, l, i, x, h => by
    obtain ⟨h1, h2⟩ := agree_append h
    simp only [climb]
    rw [climb_agree path _ _ _ h2]
    congr 1
    by_cases hp : i % 2 = 0
    · simp only [hp, if_true] at h1 ⊢; exact H_agree h1
    · simp only [hp, if_false] at h1 ⊢; exact H_agree h1

theorem wotsPkFromSig_agree {G G' : Bytes → Bytes} {w : Nat} {seed : Bytes} {i : Nat} {sig : List Bytes} {ds : List Nat}
    (h : ∀ k ∈ wotsPkFromSigCalls G w seed i sig ds, G k.input = G' k.input) :
    Spec.wotsPkFromSig G w seed i sig ds = Spec.wotsPkFromSig G' w seed i sig ds := by
  apply List.map_congr_left
  intro x hx
  apply chain_agree
  intro k hk
  exact h k (List.mem_flatMap.mpr ⟨x, hx, hk⟩)

/-- C25. The listed calls are all that verification depends on: a hash function that agrees on them recomputes the same
root. -/
theorem C25_calls_complete (G G' : Bytes → Bytes) (w h : Nat) (root seed msg sig : Bytes)
    (ha : ∀ c ∈ rootFromSigCalls G w h root seed msg sig, G c.input = G' c.input) :
    rootFromSig G w h root seed msg sig = rootFromSig G' w h root seed msg sig := by
  simp only [rootFromSigCalls] at ha
  obtain ⟨ha, h3⟩ := agree_append ha
  obtain ⟨ha, h2⟩ := agree_append ha
  have h0 := ha _ (List.mem_cons_self ..)
  have h1 := fun c hc => ha c (List.mem_cons_of_mem _ hc)
  have e0 : digest G ((sig.drop 4).take 32) root (byteVal (sig.take 4)) msg =
    digest G' ((sig.drop 4).take 32) root (byteVal (sig.take 4)) msg := h0
  simp only [rootFromSig]
  rw [climb_agree _ _ _ _ h3, ltree_agree _ _ _ rfl h2, wotsPkFromSig_agree h1, e0]

theorem leaf_agree {G G' : Bytes → Bytes} {w len : Nat} {sk seed : Bytes} {i : Nat}
    (h : ∀ c ∈ leafCalls G w len sk seed i, G c.input = G' c.input) :
    leaf G w len sk seed i = leaf G' w len sk seed i := by
  obtain ⟨h1, h2⟩ := agree_append h
  have e : wotsPk G w len sk seed i = wotsPk G' w len sk seed i := by
    apply List.map_congr_left
    intro ch hch
    have h3 := fun c hc => h1 c (List.mem_flatMap.mpr ⟨ch, hch, hc⟩)
    obtain ⟨h3, h4⟩ := agree_append h3
    simp only [wotsSecretCalls, List.mem_cons, List.not_mem_nil, or_false, forall_eq_or_imp, forall_eq] at h3
    have e1 : PRF G sk (address 0 i 0 0 0) = PRF G' sk (address 0 i 0 0 0) := h3.1
    have e2 : wotsSecret G sk i ch = wotsSecret G' sk i ch := by
      have : wotsSecret G sk i ch = G' _ := h3.2
      rw [this, wotsSecret, HCall.input, e1]
      rfl
    rw [chain_agree _ _ _ h4, e2]
  rw [leaf, leaf, ltree_agree _ _ _ rfl h2, e]

/-- C25. The same for the nodes of a key's tree. -/
theorem C25_node_calls_complete (G G' : Bytes → Bytes) (w len : Nat) (sk seed : Bytes) (l : Nat) : ∀ (i : Nat),
    (∀ c ∈ nodeCalls G w len sk seed l i, G c.input = G' c.input) →
    node G w len sk seed l i = node G' w len sk seed l i := by
  induction l with
  | zero => intro i h; exact leaf_agree h
  | succ l ih =>
    intro i h
    obtain ⟨h, h3⟩ := agree_append h
    obtain ⟨h1, h2⟩ := agree_append h
    rw [node, node, H_agree h3, ih _ h1, ih _ h2]

/-! ### Two accepted signatures -/

theorem out32 (S : Sha256) (hf : HashFn) : Out32 (hf.prim S) := fun _ => length_prim ..

theorem getElem_pkFromSig (G : Bytes → Bytes) (w : Nat) (seed : Bytes) (i : Nat) (sig : List Bytes) (ds : List Nat)
    {ch : Nat} (h1 : ch < sig.length) (h2 : ch < ds.length) :
    (Spec.wotsPkFromSig G w seed i sig ds)[ch]? = some (chain G seed i ch ds[ch] (w - 1 - ds[ch]) sig[ch]) := by
  simp [Spec.wotsPkFromSig, h1, h2, List.zip]

theorem calls_pkFromSig (G : Bytes → Bytes) (w : Nat) (seed : Bytes) (i : Nat) (sig : List Bytes) (ds : List Nat)
    {ch : Nat} (h1 : ch < sig.length) (h2 : ch < ds.length) :
    chainCalls G seed i ch ds[ch] (w - 1 - ds[ch]) sig[ch] ⊆ wotsPkFromSigCalls G w seed i sig ds := by
  intro z hz
  refine List.mem_flatMap.mpr ⟨((sig[ch], ds[ch]), ch), ?_, hz⟩
  rw [List.mem_zipIdx_iff_getElem?]
  simp [List.zip, h1, h2]

/-- Equal recovered one-time keys. -/
theorem wots_meet {G : Bytes → Bytes} (hG : Out32 G) {w : Nat} {seed : Bytes} {i : Nat} {sig sig' : List Bytes}
    {ds ds' : List Nat} {n : Nat} (hs : sig.length = n) (hs' : sig'.length = n) (hd : ds.length = n)
    (hd' : ds'.length = n) (hx : ∀ x ∈ sig, x.length = 32) (hx' : ∀ x ∈ sig', x.length = 32) (hw : ∀ d ∈ ds, d < w)
    (hw' : ∀ d ∈ ds', d < w)
    (h : Spec.wotsPkFromSig G w seed i sig ds = Spec.wotsPkFromSig G w seed i sig' ds')
    (hc : ¬ Collides G (wotsPkFromSigCalls G w seed i sig ds ++ wotsPkFromSigCalls G w seed i sig' ds')) :
    ∀ ch, ch < n → ∃ d d' x x', ds[ch]? = some d ∧ ds'[ch]? = some d' ∧ sig[ch]? = some x ∧ sig'[ch]? = some x' ∧
      (LeadsTo G seed i ch d x d' x' ∨ LeadsTo G seed i ch d' x' d x) := by
  intro ch hch
  have a1 : ch < sig.length := by omega
  have a2 : ch < sig'.length := by omega
  have a3 : ch < ds.length := by omega
  have a4 : ch < ds'.length := by omega
  refine ⟨_, _, _, _, List.getElem?_eq_getElem a3, List.getElem?_eq_getElem a4, List.getElem?_eq_getElem a1,
    List.getElem?_eq_getElem a2, ?_⟩
  have e := congrArg (·[ch]?) h
  simp only [getElem_pkFromSig G w seed i sig ds a1 a3, getElem_pkFromSig G w seed i sig' ds' a2 a4] at e
  injection e with e
  have b1 := hw _ (List.getElem_mem a3)
  have b2 := hw' _ (List.getElem_mem a4)
  have c1 := calls_pkFromSig G w seed i sig ds a1 a3
  have c2 := calls_pkFromSig G w seed i sig' ds' a2 a4
  rcases Nat.le_total ds[ch] ds'[ch] with hle | hle
  · left
    refine ⟨hle, ?_⟩
    rcases chain_meet hG hle (by omega) (hx _ (List.getElem_mem a1)) (hx' _ (List.getElem_mem a2)) e with r | r
    · exact r
    · refine absurd (r.mono ?_) hc
      intro z hz
      simp only [List.mem_append] at hz ⊢
      rcases hz with hz | hz
      · exact Or.inl (c1 hz)
      · exact Or.inr (c2 hz)
  · right
    refine ⟨hle, ?_⟩
    rcases chain_meet hG hle (by omega) (hx' _ (List.getElem_mem a2)) (hx _ (List.getElem_mem a1)) e.symm with r | r
    · exact r
    · refine absurd (r.mono ?_) hc
      intro z hz
      simp only [List.mem_append] at hz ⊢
      rcases hz with hz | hz
      · exact Or.inr (c2 hz)
      · exact Or.inl (c1 hz)

theorem verify_true_iff {S : Sha256} {msg sig epk : Bytes} {w : Nat} (hw : w = 2 ∨ w = 4 ∨ w = 16 ∨ w = 256)
    (h : verify S msg sig epk w = ok true) : WellFormed w sig epk ∧ ∃ hf, HashFn.ofNat? (keyHash epk) = some hf ∧
      rootFromSig (hf.prim S) w (keyHeight epk) (keyRoot epk) (keySeed epk) msg sig = keyRoot epk := by
  rw [C20_verify_spec S msg sig epk w hw] at h
  split at h
  · rename_i hwf
    split at h
    · rename_i hf hh
      refine ⟨hwf, hf, hh, ?_⟩
      simpa using h
    · cases h
  · cases h

theorem byteVal_lt (m : Bytes) : byteVal m < 256 ^ m.length := by
  rw [byteVal_eq, byteValue]
  have := digitValue_lt 256 (m.map UInt8.toNat) (by
    intro d hd
    obtain ⟨b, _, rfl⟩ := List.mem_map.mp hd
    exact b.toNat_lt)
  simpa using this

theorem sigIndex_lt (sig : Bytes) : sigIndex sig < 2 ^ 32 := by
  have h := byteVal_lt (sig.take 4)
  have : 256 ^ (sig.take 4).length ≤ 256 ^ 4 := Nat.pow_le_pow_right (by omega) (by simp)
  rw [sigIndex]
  omega

theorem chunks_getElem? (m : Bytes) (off k ch : Nat) (h : ch < k) :
    (chunks m off k)[ch]? = some ((m.drop (off + 32 * ch)).take 32) := by
  simp [chunks, h]

theorem mem_pkFromSig {G : Bytes → Bytes} (hG : Out32 G) (w : Nat) (seed : Bytes) (i : Nat) (sig : List Bytes)
    (ds : List Nat) (hx : ∀ x ∈ sig, x.length = 32) : ∀ y ∈ Spec.wotsPkFromSig G w seed i sig ds, y.length = 32 := by
  intro y hy
  obtain ⟨⟨⟨x, d⟩, ch⟩, hz, rfl⟩ := List.mem_map.mp hy
  exact chain_len hG _ _ _ _ _ _ (hx _ (List.of_mem_zip (List.fst_mem_of_mem_zipIdx hz)).1)

theorem length_pkFromSig (G : Bytes → Bytes) (w : Nat) (seed : Bytes) (i : Nat) (sig : List Bytes)
    (ds : List Nat) : (Spec.wotsPkFromSig G w seed i sig ds).length = min sig.length ds.length := by
  simp [Spec.wotsPkFromSig]

theorem ltree_len {G : Bytes → Bytes} (hG : Out32 G) (ps : Bytes) (i : Nat) (n : Nat) :
    ∀ (ht : Nat) (l : List Bytes), l.length = n → 1 ≤ n → (∀ x ∈ l, x.length = 32) →
      (ltree G ps i ht l).length = 32 := by
  induction n using Nat.strongRecOn with
  | _ n ih =>
    intro ht l hl h1 hx
    rw [ltree]
    by_cases h : 1 < l.length
    · simp only [h, dite_true]
      exact ih ((l.length + 1) / 2) (by omega) _ _ (length_pairUp ..) (by omega) (mem_pairUp hG l 0 hx)
    · simp only [h, dite_false]
      match l, hl with
      | [a], _ => exact hx a (by simp)
      | [], hl => simp at hl; omega
      | _ :: _ :: _, _ => simp at h

/-- Facts about a signature of the right size. -/
structure SigFacts (G : Bytes → Bytes) (w h : Nat) (root msg sig : Bytes) : Prop where
  wsig : ∀ x ∈ chunks sig 36 (lenW w), x.length = 32
  path : ∀ x ∈ sigPath w h sig, x.length = 32
  dlen : (sigDigits G w root msg sig).length = lenW w
  dlt : ∀ d ∈ sigDigits G w root msg sig, d < w
  lpos : 1 ≤ lenW w
  lle : lenW w ≤ 265

theorem sigFacts {G : Bytes → Bytes} (hG : Out32 G) {w : Nat} (hw : w = 2 ∨ w = 4 ∨ w = 16 ∨ w = 256) {h : Nat}
    (root msg : Bytes) {sig : Bytes} (hl : sig.length = 4 + 32 + 32 * lenW w + 32 * h) : SigFacts G w h root msg sig := by
  obtain ⟨p, k, q, hp, hsp, h1, h2, hk, hb⟩ := base_ok hw
  have hdig : (digest G ((sig.drop 4).take 32) root (sigIndex sig) msg).length = 32 := hG _
  refine ⟨mem_chunks sig 36 _ (by omega), mem_chunks sig _ _ (by omega), ?_, wotsDigits_lt hsp _ hdig, lenW_pos hw, ?_⟩
  · rw [sigDigits, length_wotsDigits hsp _ hdig, hsp.len]
  · obtain ⟨e1, e2, e3, e4⟩ := lenW_values
    rcases hw with rfl | rfl | rfl | rfl <;> omega

/-- Two signatures with the same index that recompute the same root. -/
theorem root_meet {G : Bytes → Bytes} (hG : Out32 G) {w : Nat} (hw : w = 2 ∨ w = 4 ∨ w = 16 ∨ w = 256) {h : Nat}
    (hh : h ≤ 30) {root seed msg msg' sig sig' : Bytes} (hl : sig.length = 4 + 32 + 32 * lenW w + 32 * h)
    (hl' : sig'.length = 4 + 32 + 32 * lenW w + 32 * h) (hidx : sigIndex sig = sigIndex sig')
    (heq : rootFromSig G w h root seed msg sig = rootFromSig G w h root seed msg' sig')
    (hc : ¬ Collides G (rootFromSigCalls G w h root seed msg sig ++ rootFromSigCalls G w h root seed msg' sig')) :
    sigPath w h sig = sigPath w h sig' ∧
    ∀ ch, ch < lenW w → ∃ d d', (sigDigits G w root msg sig)[ch]? = some d ∧
      (sigDigits G w root msg' sig')[ch]? = some d' ∧
      (LeadsTo G seed (sigIndex sig) ch d (sigChain sig ch) d' (sigChain sig' ch) ∨
       LeadsTo G seed (sigIndex sig) ch d' (sigChain sig' ch) d (sigChain sig ch)) := by
  have A := sigFacts hG hw root msg hl
  have B := sigFacts hG hw root msg' hl'
  have hi := sigIndex_lt sig
  simp only [rootFromSig, rootFromSigCalls] at heq hc
  change climb G seed 0 (sigIndex sig) (ltree G seed (sigIndex sig) 0 (Spec.wotsPkFromSig G w seed (sigIndex sig)
    (chunks sig 36 (lenW w)) (sigDigits G w root msg sig))) (sigPath w h sig) =
    climb G seed 0 (sigIndex sig') (ltree G seed (sigIndex sig') 0 (Spec.wotsPkFromSig G w seed (sigIndex sig')
    (chunks sig' 36 (lenW w)) (sigDigits G w root msg' sig'))) (sigPath w h sig') at heq
  change ¬ Collides G ((_ :: wotsPkFromSigCalls G w seed (sigIndex sig) (chunks sig 36 (lenW w))
      (sigDigits G w root msg sig) ++ ltreeCalls G seed (sigIndex sig) 0 (Spec.wotsPkFromSig G w seed (sigIndex sig)
      (chunks sig 36 (lenW w)) (sigDigits G w root msg sig)) ++ climbCalls G seed 0 (sigIndex sig) (ltree G seed
      (sigIndex sig) 0 (Spec.wotsPkFromSig G w seed (sigIndex sig) (chunks sig 36 (lenW w))
      (sigDigits G w root msg sig))) (sigPath w h sig)) ++ (_ :: wotsPkFromSigCalls G w seed (sigIndex sig')
      (chunks sig' 36 (lenW w)) (sigDigits G w root msg' sig') ++ ltreeCalls G seed (sigIndex sig') 0
      (Spec.wotsPkFromSig G w seed (sigIndex sig') (chunks sig' 36 (lenW w)) (sigDigits G w root msg' sig')) ++
      climbCalls G seed 0 (sigIndex sig') (ltree G seed (sigIndex sig') 0 (Spec.wotsPkFromSig G w seed (sigIndex sig')
      (chunks sig' 36 (lenW w)) (sigDigits G w root msg' sig'))) (sigPath w h sig'))) at hc
  rw [← hidx] at heq hc
  have w1 := mem_pkFromSig hG w seed (sigIndex sig) _ (sigDigits G w root msg sig) A.wsig
  have w2 := mem_pkFromSig hG w seed (sigIndex sig) _ (sigDigits G w root msg' sig') B.wsig
  have l1 := length_pkFromSig G w seed (sigIndex sig) (chunks sig 36 (lenW w)) (sigDigits G w root msg sig)
  have l2 := length_pkFromSig G w seed (sigIndex sig) (chunks sig' 36 (lenW w)) (sigDigits G w root msg' sig')
  rw [length_chunks, A.dlen, Nat.min_self] at l1
  rw [length_chunks, B.dlen, Nat.min_self] at l2
  have p1 : (sigPath w h sig).length = h := length_chunks ..
  have p2 : (sigPath w h sig').length = h := length_chunks ..
  have hlp := A.lpos
  have hll := A.lle
  rcases climb_inj hG _ _ 0 (sigIndex sig) _ _ (by omega) (by omega) hi (ltree_len hG _ _ _ _ _ l1 hlp w1)
    (ltree_len hG _ _ _ _ _ l2 hlp w2) A.path B.path heq with ⟨e1, e2⟩ | r
  swap
  · refine absurd (r.mono ?_) hc
    intro z hz
    simp only [List.mem_append, List.mem_cons] at hz ⊢
    tauto
  refine ⟨e2, ?_⟩
  rcases ltree_inj hG hi (lenW w) 0 _ _ l1 l2 hlp (by omega) w1 w2 e1 with e3 | r
  swap
  · refine absurd (r.mono ?_) hc
    intro z hz
    simp only [List.mem_append, List.mem_cons] at hz ⊢
    tauto
  intro ch hch
  obtain ⟨d, d', x, x', f1, f2, f3, f4, f5⟩ := wots_meet hG (length_chunks ..) (length_chunks ..) A.dlen B.dlen A.wsig
    B.wsig A.dlt B.dlt e3 (fun r => hc (r.mono (by
      intro z hz
      simp only [List.mem_append, List.mem_cons] at hz ⊢
      tauto))) ch hch
  rw [chunks_getElem? _ _ _ _ hch] at f3 f4
  cases f3
  cases f4
  exact ⟨d, d', f1, f2, f5⟩

/-- C25. Two signatures accepted under one key that name the same one-time key: either two of the hash calls made by the
two verifications collide, or the authentication paths are equal and in every chain one of the two signature values
leads to the other by hashing forward. -/
theorem C25_two_signatures (S : Sha256) (msg msg' sig sig' epk : Bytes) (w : Nat)
    (hw : w = 2 ∨ w = 4 ∨ w = 16 ∨ w = 256) (h : verify S msg sig epk w = ok true)
    (h' : verify S msg' sig' epk w = ok true) (hidx : sigIndex sig = sigIndex sig') :
    ∃ hf : HashFn, HashFn.ofNat? (keyHash epk) = some hf ∧
      (Collides (hf.prim S) (verifyCalls (hf.prim S) w msg sig epk ++ verifyCalls (hf.prim S) w msg' sig' epk) ∨
       (sigPath w (keyHeight epk) sig = sigPath w (keyHeight epk) sig' ∧
        ∀ ch, ch < lenW w → ∃ d d', (sigDigits (hf.prim S) w (keyRoot epk) msg sig)[ch]? = some d ∧
          (sigDigits (hf.prim S) w (keyRoot epk) msg' sig')[ch]? = some d' ∧
          (LeadsTo (hf.prim S) (keySeed epk) (sigIndex sig) ch d (sigChain sig ch) d' (sigChain sig' ch) ∨
           LeadsTo (hf.prim S) (keySeed epk) (sigIndex sig) ch d' (sigChain sig' ch) d (sigChain sig ch)))) := by
  obtain ⟨wf, hf, hh, hr⟩ := verify_true_iff hw h
  obtain ⟨wf', hf', hh', hr'⟩ := verify_true_iff hw h'
  rw [hh] at hh'
  cases hh'
  refine ⟨hf, hh, ?_⟩
  by_cases hc : Collides (hf.prim S) (verifyCalls (hf.prim S) w msg sig epk ++ verifyCalls (hf.prim S) w msg' sig' epk)
  · exact Or.inl hc
  · right
    exact root_meet (out32 S hf) hw (by rw [keyHeight]; omega) wf.2.2 wf'.2.2 hidx (hr.trans hr'.symm) hc

theorem chunks_flatten (m : Bytes) (k : Nat) : ∀ off, off + 32 * k ≤ m.length →
    (chunks m off k).flatten = (m.drop off).take (32 * k) := by
  induction k with
  | zero => intro off _; simp [chunks]
  | succ k ih =>
    intro off h
    have e : chunks m off (k + 1) = (m.drop off).take 32 :: chunks m (off + 32) k := by
      simp only [chunks, List.range_succ_eq_map, List.map_cons, List.map_map, Nat.mul_zero, Nat.add_zero]
      congr 1
      apply List.map_congr_left
      intro j _
      simp only [Function.comp]
      rw [show off + 32 * (j + 1) = off + 32 + 32 * j by omega]
    rw [e, List.flatten_cons, ih _ (by omega), show 32 * (k + 1) = 32 + 32 * k by omega, List.take_add,
      List.drop_drop]

/-- A signature is determined by its four parts. -/
theorem sig_parts {w h : Nat} {sig : Bytes} (hl : sig.length = 4 + 32 + 32 * lenW w + 32 * h) :
    sig = sig.take 4 ++ (sig.drop 4).take 32 ++ (chunks sig 36 (lenW w)).flatten ++ (sigPath w h sig).flatten := by
  rw [sigPath, chunks_flatten _ _ _ (by omega), chunks_flatten _ _ _ (by omega)]
  have e1 : sig = sig.take 4 ++ sig.drop 4 := (List.take_append_drop 4 sig).symm
  have e2 : sig.drop 4 = (sig.drop 4).take 32 ++ sig.drop 36 := by
    have := (List.take_append_drop 32 (sig.drop 4)).symm
    rwa [List.drop_drop] at this
  have e3 : sig.drop 36 = (sig.drop 36).take (32 * lenW w) ++ sig.drop (36 + 32 * lenW w) := by
    have := (List.take_append_drop (32 * lenW w) (sig.drop 36)).symm
    rwa [List.drop_drop] at this
  have e4 : (sig.drop (36 + 32 * lenW w)).take (32 * h) = sig.drop (36 + 32 * lenW w) :=
    List.take_of_length_le (by rw [List.length_drop]; omega)
  rw [e4, List.append_assoc, List.append_assoc, ← e3, ← e2, ← e1]

theorem digitValue_inj (w : Nat) : ∀ (l l' : List Nat), l.length = l'.length → (∀ d ∈ l, d < w) → (∀ d ∈ l', d < w) →
    digitValue w l = digitValue w l' → l = l'
  | [], [], _, _, _, _ => rfl
  | [], _ :: _, h, _, _, _ => by simp at h
  | _ :: _, [], h, _, _, _ => by simp at h
  | a :: l, b :: l', hl, h1, h2, h => by
    have hl2 : l.length = l'.length := by simpa using hl
    rw [digitValue_cons, digitValue_cons, hl2] at h
    have b1 := digitValue_lt w l fun d hd => h1 d (by simp [hd])
    have b2 := digitValue_lt w l' fun d hd => h2 d (by simp [hd])
    rw [hl2] at b1
    have hpos : 0 < w ^ l'.length := by omega
    have e : a = b := by
      have := congrArg (· / w ^ l'.length) h
      rwa [Nat.mul_comm, Nat.mul_add_div hpos, Nat.div_eq_of_lt b1, Nat.mul_comm b, Nat.mul_add_div hpos,
        Nat.div_eq_of_lt b2] at this
    subst e
    rw [digitValue_inj w l l' hl2 (fun d hd => h1 d (by simp [hd])) (fun d hd => h2 d (by simp [hd])) (by omega)]

theorem byteVal_inj {l l' : Bytes} (hl : l.length = l'.length) (h : byteVal l = byteVal l') : l = l' := by
  rw [byteVal_eq, byteVal_eq, byteValue, byteValue] at h
  have B : ∀ (l : Bytes), ∀ d ∈ l.map UInt8.toNat, d < 256 := by
    intro l d hd
    obtain ⟨b, _, rfl⟩ := List.mem_map.mp hd
    exact b.toNat_lt
  have := digitValue_inj 256 _ _ (by simpa using hl) (B l) (B l') h
  exact List.map_injective_iff.mpr (fun a b => UInt8.toNat_inj.mp) this

/-- C25. For `w` = 2, 4 or 16: two signatures accepted under one key that name the same one-time key are equal and sign
the same message; or two of the hash calls made by the verifications collide; or in some chain the second signature
reveals a value strictly later than the first one's, which hashes forward to it: so whoever has only the second one has
inverted that chain to make the first. -/
theorem C25_no_second_message (S : Sha256) (msg msg' sig sig' epk : Bytes) (w : Nat) (hw : w = 2 ∨ w = 4 ∨ w = 16)
    (h : verify S msg sig epk w = ok true) (h' : verify S msg' sig' epk w = ok true)
    (hidx : sigIndex sig = sigIndex sig') :
    ∃ hf : HashFn, HashFn.ofNat? (keyHash epk) = some hf ∧
      ((msg = msg' ∧ sig = sig') ∨
       Collides (hf.prim S) (verifyCalls (hf.prim S) w msg sig epk ++ verifyCalls (hf.prim S) w msg' sig' epk) ∨
       ∃ (ch d d' : Nat), (sigDigits (hf.prim S) w (keyRoot epk) msg sig)[ch]? = some d ∧
          (sigDigits (hf.prim S) w (keyRoot epk) msg' sig')[ch]? = some d' ∧ d < d' ∧
          LeadsTo (hf.prim S) (keySeed epk) (sigIndex sig) ch d (sigChain sig ch) d' (sigChain sig' ch)) := by
  have hw4 : w = 2 ∨ w = 4 ∨ w = 16 ∨ w = 256 := by omega
  obtain ⟨wf, _⟩ := verify_true_iff hw4 h
  obtain ⟨wf', _⟩ := verify_true_iff hw4 h'
  obtain ⟨hf, hh, hor⟩ := C25_two_signatures S msg msg' sig sig' epk w hw4 h h' hidx
  refine ⟨hf, hh, ?_⟩
  have hG := out32 S hf
  generalize hf.prim S = G at *
  rcases hor with hc | ⟨hpath, hch⟩
  · exact Or.inr (Or.inl hc)
  by_cases hc : Collides G (verifyCalls G w msg sig epk ++ verifyCalls G w msg' sig' epk)
  · exact Or.inr (Or.inl hc)
  have A := sigFacts hG hw4 (keyRoot epk) msg wf.2.2
  have hL : ∀ (r : Bytes) i m, (digest G r (keyRoot epk) i m).length = 32 := fun r i m => hG _
  by_cases hD : digest G ((sig.drop 4).take 32) (keyRoot epk) (sigIndex sig) msg =
      digest G ((sig'.drop 4).take 32) (keyRoot epk) (sigIndex sig') msg'
  · left
    have hin : (HCall.msg ((sig.drop 4).take 32 ++ keyRoot epk ++ be 32 (sigIndex sig)) msg).input =
        (HCall.msg ((sig'.drop 4).take 32 ++ keyRoot epk ++ be 32 (sigIndex sig')) msg').input := by
      apply Classical.byContradiction
      intro hne
      refine hc ⟨_, ?_, _, ?_, hne, hD⟩
      · exact List.mem_append_left _ (by simp only [verifyCalls, rootFromSigCalls, sigIndex]; simp)
      · exact List.mem_append_right _ (by simp only [verifyCalls, rootFromSigCalls, sigIndex]; simp)
    have w1 := wf.2.2
    have w2 := wf'.2.2
    have hk : (keyRoot epk).length = 32 := by rw [keyRoot, List.length_take, List.length_drop, wf.1]; omega
    have r1 : ((sig.drop 4).take 32).length = 32 := by rw [List.length_take, List.length_drop]; omega
    have r2 : ((sig'.drop 4).take 32).length = 32 := by rw [List.length_take, List.length_drop]; omega
    have hce := C37_calls_distinct _ _ (by simp only [HCall.WellKeyed, List.length_append, hk, r1, length_be])
      (by simp only [HCall.WellKeyed, List.length_append, hk, r2, length_be]) hin
    injection hce with ek em
    rw [List.append_assoc, List.append_assoc] at ek
    have er := (List.append_inj ek (by omega)).1
    have eds : sigDigits G w (keyRoot epk) msg sig = sigDigits G w (keyRoot epk) msg' sig' := by
      rw [sigDigits, sigDigits, hD]
    refine ⟨em, ?_⟩
    rw [sig_parts wf.2.2, sig_parts wf'.2.2, hpath, er]
    have e4 : sig.take 4 = sig'.take 4 := byteVal_inj (by simp; omega) hidx
    have ech : chunks sig 36 (lenW w) = chunks sig' 36 (lenW w) := by
      apply List.map_congr_left
      intro ch hm
      obtain ⟨d, d', f1, f2, f3⟩ := hch ch (List.mem_range.mp hm)
      rw [eds, f2] at f1
      cases f1
      rcases f3 with f3 | f3
      · have := f3.2
        rw [Nat.sub_self] at this
        exact this
      · have := f3.2
        rw [Nat.sub_self] at this
        exact this.symm
    rw [e4, ech]
  · right; right
    obtain ⟨p, k, q, hp, hsp, _⟩ := base_ok hw4
    obtain ⟨ch, d, d', f1, f2, f3⟩ := C24_no_forward_forgery w hw p hp _ _ (hL _ _ _) (hL _ _ _) (Ne.symm hD) _ _
      (signDigits_spec hsp _ (hL _ _ _)) (signDigits_spec hsp _ (hL _ _ _))
    have hlt : ch < lenW w := by
      have := (List.getElem?_eq_some_iff.mp f2).1
      change ch < (sigDigits G w (keyRoot epk) msg sig).length at this
      rwa [A.dlen] at this
    obtain ⟨a, a', g1, g2, g3⟩ := hch ch hlt
    have ea : a = d' := Option.some.inj (g1.symm.trans f2)
    have ea' : a' = d := Option.some.inj (g2.symm.trans f1)
    subst ea
    subst ea'
    refine ⟨ch, a, a', g1, g2, f3, ?_⟩
    rcases g3 with g3 | g3
    · exact g3
    · have := g3.1
      omega

/-- C25. Every signature accepted under the public key of an honestly generated key names a one-time key of the tree,
carries its authentication path, and its chains end in its WOTS+ public key; or two of the hash calls made by this
verification and by key generation collide. -/
theorem C25_honest_key (S : Sha256) (seed : Bytes) (height : UInt8) (hf : HashFn) (af : Nat) (o0 : XmssFast)
    (hnew : XmssFast.new S seed height hf.toNat af = ok o0) (pk : Bytes) (hpk : o0.getPK = ok pk) (msg sig : Bytes)
    (h : verify S msg sig pk 16 = ok true) :
    (sigIndex sig < 2 ^ height.toNat ∧
      sigPath 16 height.toNat sig = authPath (hf.prim S) 16 67 ((shake256 96 seed).take 32) ((shake256 96 seed).drop 64)
        height.toNat (sigIndex sig) ∧
      ∀ ch, ch < 67 → ∃ d, (sigDigits (hf.prim S) 16 (keyRoot pk) msg sig)[ch]? = some d ∧
        LeadsTo (hf.prim S) ((shake256 96 seed).drop 64) (sigIndex sig) ch d (sigChain sig ch) 15
          (chain (hf.prim S) ((shake256 96 seed).drop 64) (sigIndex sig) ch 0 15
            (wotsSecret (hf.prim S) ((shake256 96 seed).take 32) (sigIndex sig) ch))) ∨
    Collides (hf.prim S) (verifyCalls (hf.prim S) 16 msg sig pk ++
      nodeCalls (hf.prim S) 16 67 ((shake256 96 seed).take 32) ((shake256 96 seed).drop 64) height.toNat 0) := by
  have hw4 : 16 = 2 ∨ 16 = 4 ∨ 16 = 16 ∨ 16 = 256 := by omega
  obtain ⟨hs, hg, f, hf1, hf2, rfl, e2, e3, e4, p, k, q, hp, e5, HH⟩ := fast_fresh hnew
  rw [ofNat?_toNat] at hf2
  cases hf2
  have hG := out32 S hf
  have hsk : o0.sk = (keyOf S hf 16 o0.height.toNat (lenW_pos (by omega)) seed).sk 0 := HH.hsk
  have hpk' := getPK_eq _ o0.toXmssBase 0 hsk
  rw [hpk'] at hpk
  cases hpk
  obtain ⟨f1, f2, f3, f4, f5⟩ := pk_fields (keyOf S hf 16 o0.height.toNat (lenW_pos (by omega)) seed) o0.toXmssBase hf
    e2 hg
  obtain ⟨wf, hf', hh', hr⟩ := verify_true_iff hw4 h
  rw [f2, ofNat?_toNat] at hh'
  cases hh'
  have hwl := wf.2.2
  have L67 : lenW 16 = 67 := lenW_values.2.2.1
  rw [f3] at hwl
  have A := sigFacts hG hw4 (keyRoot (o0.getDescriptorBytes ++ (keyOf S hf 16 o0.height.toNat (lenW_pos (by omega))
    seed).root ++ (keyOf S hf 16 o0.height.toNat (lenW_pos (by omega)) seed).ps)) msg hwl
  rw [f3, f4, f5] at hr
  rw [f4] at A
  simp only [verifyCalls, f3, f4, f5]
  have hroot : (keyOf S hf 16 o0.height.toNat (lenW_pos (by omega)) seed).root =
      node (hf.prim S) 16 67 ((shake256 96 seed).take 32) ((shake256 96 seed).drop 64) o0.height.toNat 0 := by
    rw [← L67]; rfl
  have hps : (keyOf S hf 16 o0.height.toNat (lenW_pos (by omega)) seed).ps = (shake256 96 seed).drop 64 := rfl
  rw [hps] at hr ⊢
  generalize (keyOf S hf 16 o0.height.toNat (lenW_pos (by omega)) seed).root = root at *
  generalize (shake256 96 seed).drop 64 = ps at *
  generalize (shake256 96 seed).take 32 = sk at *
  generalize hf.prim S = G at *
  obtain ⟨h4, h30, _⟩ := hg
  rw [or_iff_not_imp_right]
  intro hc
  simp only [rootFromSig, rootFromSigCalls] at hr hc
  change climb G ps 0 (sigIndex sig) (ltree G ps (sigIndex sig) 0 (Spec.wotsPkFromSig G 16 ps (sigIndex sig)
    (chunks sig 36 (lenW 16)) (sigDigits G 16 root msg sig))) (sigPath 16 o0.height.toNat sig) = root at hr
  change ¬ Collides G ((_ :: wotsPkFromSigCalls G 16 ps (sigIndex sig) (chunks sig 36 (lenW 16))
      (sigDigits G 16 root msg sig) ++ ltreeCalls G ps (sigIndex sig) 0 (Spec.wotsPkFromSig G 16 ps (sigIndex sig)
      (chunks sig 36 (lenW 16)) (sigDigits G 16 root msg sig)) ++ climbCalls G ps 0 (sigIndex sig) (ltree G ps
      (sigIndex sig) 0 (Spec.wotsPkFromSig G 16 ps (sigIndex sig) (chunks sig 36 (lenW 16))
      (sigDigits G 16 root msg sig))) (sigPath 16 o0.height.toNat sig)) ++ _) at hc
  have hi := sigIndex_lt sig
  have w1 := mem_pkFromSig hG 16 ps (sigIndex sig) _ (sigDigits G 16 root msg sig) A.wsig
  have l1 := length_pkFromSig G 16 ps (sigIndex sig) (chunks sig 36 (lenW 16)) (sigDigits G 16 root msg sig)
  rw [length_chunks, A.dlen, Nat.min_self] at l1
  have p1 : (sigPath 16 o0.height.toNat sig).length = o0.height.toNat := length_chunks ..
  have := climb_honest hG (w := 16) (len := 67) (sk := sk) (ps := ps) (by omega) (sigPath 16 o0.height.toNat sig) 0
    (sigIndex sig) 0 _ (by intro hn; rw [hn] at p1; simp at p1; omega) (by omega) hi (by omega)
    (ltree_len hG _ _ _ _ _ l1 A.lpos w1) A.path (by rw [hr, p1, hroot, Nat.zero_add])
  rw [p1, Nat.zero_add] at this
  rcases this with ⟨g1, g2, g3⟩ | r
  swap
  · refine absurd (r.mono ?_) hc
    intro z hz
    simp only [List.mem_append, List.mem_cons] at hz ⊢
    tauto
  have hlt : sigIndex sig < 2 ^ o0.height.toNat := by
    rcases Nat.div_eq_zero_iff.mp g1 with g | g
    · exact absurd g (Nat.two_pow_pos _).ne'
    · exact g
  refine ⟨hlt, ?_, ?_⟩
  · rw [g3, authPath]
    simp only [Nat.zero_add]
  · have hsub := nodeCalls_sub G 16 67 sk ps o0.height.toNat 0 (sigIndex sig)
    rw [g1, Nat.zero_add] at hsub
    rw [node, leaf] at g2
    have hpkx : ∀ x ∈ wotsPk G 16 67 sk ps (sigIndex sig), x.length = 32 := by
      intro x hx
      simp only [wotsPk, List.mem_map] at hx
      obtain ⟨ch, _, rfl⟩ := hx
      exact chain_len hG _ _ _ _ _ _ (hG _)
    rcases ltree_inj hG hi 67 0 _ _ (by rw [l1, L67]) (length_wotsPk ..) (by omega) (by omega) w1 hpkx g2 with e | r
    swap
    · refine absurd (r.mono ?_) hc
      intro z hz
      simp only [List.mem_append, List.mem_cons] at hz ⊢
      rcases hz with hz | hz
      · tauto
      · right
        apply hsub
        simp only [nodeCalls, leafCalls, List.mem_append]
        exact Or.inr hz
    intro ch hch
    have a1 : ch < (chunks sig 36 (lenW 16)).length := by rw [length_chunks, L67]; exact hch
    have a2 : ch < (sigDigits G 16 root msg sig).length := by rw [A.dlen, L67]; exact hch
    have e1 := getElem_pkFromSig G 16 ps (sigIndex sig) _ _ a1 a2
    rw [e] at e1
    have e1' : (wotsPk G 16 67 sk ps (sigIndex sig))[ch]? = some (chain G ps (sigIndex sig) ch 0 15
      (wotsSecret G sk (sigIndex sig) ch)) := by simp [wotsPk, hch]
    rw [e1'] at e1
    injection e1 with e1
    have hcs := chunks_getElem? sig 36 (lenW 16) ch (by rw [L67]; exact hch)
    rw [List.getElem?_eq_getElem a1] at hcs
    injection hcs with hcs
    rw [hcs] at e1
    refine ⟨_, List.getElem?_eq_getElem a2, ?_, ?_⟩
    · have := A.dlt _ (List.getElem_mem a2)
      omega
    · exact e1.symm

/-- The hypotheses of the theorems are met: two signatures of different messages, accepted under the public key of the
same honestly generated key, naming the same one-time key. -/
example : ∃ o0 pk s1 s2, XmssFast.new toySha zeroSeed 4 1 0 = ok o0 ∧ o0.getPK = ok pk ∧
    verify toySha [1] s1 pk 16 = ok true ∧ verify toySha [2] s2 pk 16 = ok true ∧ sigIndex s1 = sigIndex s2 := by
  obtain ⟨o0, h⟩ := (C39_fast_succeeds toySha zeroSeed 4 1 0).mpr ⟨rfl, goodHeight4, by omega⟩
  obtain ⟨o, h1, h2⟩ := C19_fast_refines_counter toySha zeroSeed 4 .shake_128 0 o0 h []
  have hr : runCalls (XmssFast.call toySha) o0 [] = some ([], o0) := rfl
  have h0 : o0.getIndex = ok 0 := by
    have hh : o = o0 := by
      have : some (([] : List Reply), o0) = some ([], o) := h1
      injection this with this
      exact (Prod.mk.inj this).2.symm
    rw [hh] at h2
    exact h2
  obtain ⟨_, s1, _, pk, _, _, _, _, i1, hpk, v1, _⟩ := C12_fast_sign_verifies toySha zeroSeed _ _ 0 o0 h [] _ _ hr 0 h0
    (by decide) [1]
  obtain ⟨_, s2, _, pk', _, _, _, _, i2, hpk', v2, _⟩ := C12_fast_sign_verifies toySha zeroSeed _ _ 0 o0 h [] _ _ hr 0 h0
    (by decide) [2]
  rw [hpk] at hpk'
  cases hpk'
  exact ⟨o0, pk, s1, s2, h, hpk, v1, v2, by rw [i1, i2]⟩

end Qrl.Props
