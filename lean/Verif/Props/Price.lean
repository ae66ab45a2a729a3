import Verif.Props.Reuse
import Verif.Props.Forgery
import Verif.Props.PoolSeeds
import Verif.Spec.Price
/-!
# C77: what an accepted signature costs, whatever the signer did
-/

namespace Qrl.Props

open Outcome Qrl.Spec

/-- A signature that recomputes the root of an honest tree, for any `w`: its index is one of the tree, it has the
authentication path, and each of its chain values hashes forward to every later value of the honest chain. -/
theorem honest_root {G : Bytes → Bytes} (hG : Out32 G) {w : Nat} (hw : w = 2 ∨ w = 4 ∨ w = 16 ∨ w = 256) {h : Nat}
    (h1 : 1 ≤ h) (h30 : h ≤ 30) {sk ps msg sig root : Bytes} (hl : sig.length = 4 + 32 + 32 * lenW w + 32 * h)
    (hroot : root = node G w (lenW w) sk ps h 0) (hr : rootFromSig G w h root ps msg sig = root) :
    (sigIndex sig < 2 ^ h ∧ sigPath w h sig = authPath G w (lenW w) sk ps h (sigIndex sig) ∧
      ∀ ch, ch < lenW w → ∃ d, (sigDigits G w root msg sig)[ch]? = some d ∧ d < w ∧
        ∀ e, d ≤ e → e ≤ w - 1 → LeadsTo G ps (sigIndex sig) ch d (sigChain sig ch) e
          (chain G ps (sigIndex sig) ch 0 e (wotsSecret G sk (sigIndex sig) ch))) ∨
    Collides G (rootFromSigCalls G w h root ps msg sig ++ nodeCalls G w (lenW w) sk ps h 0) := by
  have A := sigFacts hG hw root msg hl
  rw [or_iff_not_imp_right]
  intro hc
  simp only [rootFromSig, rootFromSigCalls] at hr hc
  change climb G ps 0 (sigIndex sig) (ltree G ps (sigIndex sig) 0 (Spec.wotsPkFromSig G w ps (sigIndex sig)
    (chunks sig 36 (lenW w)) (sigDigits G w root msg sig))) (sigPath w h sig) = root at hr
  change ¬ Collides G ((_ :: wotsPkFromSigCalls G w ps (sigIndex sig) (chunks sig 36 (lenW w))
      (sigDigits G w root msg sig) ++ ltreeCalls G ps (sigIndex sig) 0 (Spec.wotsPkFromSig G w ps (sigIndex sig)
      (chunks sig 36 (lenW w)) (sigDigits G w root msg sig)) ++ climbCalls G ps 0 (sigIndex sig) (ltree G ps
      (sigIndex sig) 0 (Spec.wotsPkFromSig G w ps (sigIndex sig) (chunks sig 36 (lenW w))
      (sigDigits G w root msg sig))) (sigPath w h sig)) ++ _) at hc
  have hi := sigIndex_lt sig
  have w1 := mem_pkFromSig hG w ps (sigIndex sig) _ (sigDigits G w root msg sig) A.wsig
  have l1 := length_pkFromSig G w ps (sigIndex sig) (chunks sig 36 (lenW w)) (sigDigits G w root msg sig)
  rw [length_chunks, A.dlen, Nat.min_self] at l1
  have hll := A.lle
  have p1 : (sigPath w h sig).length = h := length_chunks ..
  have := climb_honest hG (w := w) (len := lenW w) (sk := sk) (ps := ps) A.lpos (sigPath w h sig) 0
    (sigIndex sig) 0 _ (by intro hn; rw [hn] at p1; simp at p1; omega) (by omega) hi (by omega)
    (ltree_len hG _ _ _ _ _ l1 A.lpos w1) A.path (by rw [hr, p1, hroot, Nat.zero_add])
  rw [p1, Nat.zero_add] at this
  rcases this with ⟨g1, g2, g3⟩ | r
  swap
  · refine absurd (r.mono ?_) hc
    intro z hz
    simp only [List.mem_append, List.mem_cons] at hz ⊢
    tauto
  have hlt : sigIndex sig < 2 ^ h := by
    rcases Nat.div_eq_zero_iff.mp g1 with g | g
    · exact absurd g (Nat.two_pow_pos _).ne'
    · exact g
  refine ⟨hlt, ?_, ?_⟩
  · rw [g3, authPath]
    simp only [Nat.zero_add]
  have hsub := nodeCalls_sub G w (lenW w) sk ps h 0 (sigIndex sig)
  rw [g1, Nat.zero_add] at hsub
  rw [node, leaf] at g2
  have hpkx : ∀ x ∈ wotsPk G w (lenW w) sk ps (sigIndex sig), x.length = 32 := by
    intro x hx
    simp only [wotsPk, List.mem_map] at hx
    obtain ⟨ch, _, rfl⟩ := hx
    exact chain_len hG _ _ _ _ _ _ (hG _)
  rcases ltree_inj hG hi (lenW w) 0 _ _ l1 (length_wotsPk ..) A.lpos (by omega) w1 hpkx g2 with e | r
  swap
  · refine absurd (r.mono ?_) hc
    intro z hz
    simp only [List.mem_append, List.mem_cons] at hz ⊢
    rcases hz with hz | hz
    · tauto
    · right
      apply hsub
      simp only [nodeCalls, leafCalls, List.mem_append]
      exact Or.inr hz
  intro ch hch
  have a1 : ch < (chunks sig 36 (lenW w)).length := by rw [length_chunks]; exact hch
  have a2 : ch < (sigDigits G w root msg sig).length := by rw [A.dlen]; exact hch
  have e1 := getElem_pkFromSig G w ps (sigIndex sig) _ _ a1 a2
  have hsubc := calls_pkFromSig G w ps (sigIndex sig) _ _ a1 a2
  rw [e] at e1
  have e1' : (wotsPk G w (lenW w) sk ps (sigIndex sig))[ch]? = some (chain G ps (sigIndex sig) ch 0 (w - 1)
    (wotsSecret G sk (sigIndex sig) ch)) := by simp [wotsPk, hch]
  rw [e1'] at e1
  injection e1 with e1
  have hcs := chunks_getElem? sig 36 (lenW w) ch hch
  rw [List.getElem?_eq_getElem a1] at hcs
  injection hcs with hcs
  rw [hcs] at e1 hsubc
  have hd := A.dlt _ (List.getElem_mem a2)
  refine ⟨_, List.getElem?_eq_getElem a2, hd, ?_⟩
  intro e hde hew
  refine ⟨hde, ?_⟩
  have hx : ((sig.drop (36 + 32 * ch)).take 32).length = 32 := by
    have : 32 * ch + 32 ≤ 32 * lenW w := by omega
    rw [List.length_take, List.length_drop]; omega
  have ha := chain_add G ps (sigIndex sig) ch e (w - 1 - e) 0 (wotsSecret G sk (sigIndex sig) ch)
  have hb := chainCalls_add G ps (sigIndex sig) ch e (w - 1 - e) 0 (wotsSecret G sk (sigIndex sig) ch)
  rw [Nat.zero_add, show e + (w - 1 - e) = w - 1 by omega] at ha hb
  rcases chain_meet hG hde hew hx (chain_len hG ps (sigIndex sig) ch e 0 _ (hG _)) (e1.symm.trans ha.symm) with r | r
  · exact r
  · refine absurd (r.mono ?_) hc
    intro z hz
    simp only [List.mem_append, List.mem_cons] at hz ⊢
    rcases hz with hz | hz
    · exact Or.inl (Or.inl (Or.inl (Or.inr (hsubc hz))))
    · right
      apply hsub
      simp only [nodeCalls, leafCalls, wotsPkCalls, List.mem_append, List.mem_flatMap, List.mem_range]
      refine Or.inl ⟨ch, hch, Or.inr ?_⟩
      rw [hb]
      exact List.mem_append_right _ hz

/-- Some chain of every signature is revealed before its end, for every `w`. -/
theorem small_digit {w : Nat} (hw : w = 2 ∨ w = 4 ∨ w = 16 ∨ w = 256) (m : Bytes) (hm : m.length = 32) :
    ∃ (ch d : Nat), (wotsDigits w m)[ch]? = some d ∧ d < w - 1 := by
  apply Classical.byContradiction
  intro hno
  obtain ⟨p, k, q, hp, hsp, _⟩ := base_ok hw
  have hlt := wotsDigits_lt hsp m hm
  have hall : ∀ d ∈ wotsDigits w m, d = w - 1 := by
    intro d hd
    obtain ⟨ch, hch⟩ := List.mem_iff_getElem?.mp hd
    have := hlt d hd
    apply Classical.byContradiction
    intro hne
    exact hno ⟨ch, d, hch, by omega⟩
  have hsum : (((List.range (len1 w)).map (digit (lgW w) m)).map fun d => w - 1 - d).sum = 0 := by
    apply List.sum_eq_zero
    intro x hx
    obtain ⟨d, hd, rfl⟩ := List.mem_map.mp hx
    have := hall d (by rw [wotsDigits]; exact List.mem_append_left _ hd)
    omega
  have hl2 : 0 < len2 w := Nat.succ_pos _
  have hz : digit (lgW w) (be ((len2 w * lgW w + 7) / 8) 0) 0 = 0 := by
    rcases hw with rfl | rfl | rfl | rfl <;> decide
  have h0 : (0 : Nat) ∈ wotsDigits w m := by
    rw [wotsDigits]
    refine List.mem_append_right _ (List.mem_map.mpr ⟨0, List.mem_range.mpr hl2, ?_⟩)
    rw [hsum, Nat.zero_mul]
    exact hz
  have := hall 0 h0
  omega

/-- C77. **What an accepted signature costs.** Take any honest key (`w` = 2, 4, 16 or 256) and any list of published
signatures with its one-time keys: any messages, one-time keys used once or many times, authentication paths right or
wrong. For every pair that `verify` accepts under that key: two of the hash calls made by this verification and by key
generation collide; or its index is one of the key's and either in every chain its position is at or after that of a published signature
with the same one-time key, or in some chain it reveals a value that lies strictly before all published values of that
chain (and before its end) and that hashes forward to each of them. -/
theorem C77_price (S : Sha256) (hf : HashFn) (w : Nat) (hw : w = 2 ∨ w = 4 ∨ w = 16 ∨ w = 256) (seed pk : Bytes)
    (hh : HashFn.ofNat? (keyHash pk) = some hf) (hseed : keySeed pk = (shake256 96 seed).drop 64)
    (hroot : keyRoot pk = Spec.node (hf.prim S) w (lenW w) ((shake256 96 seed).take 32) ((shake256 96 seed).drop 64)
      (keyHeight pk) 0)
    (published : List (Bytes × Bytes))
    (hk : ∀ x ∈ published, ∃ i, i < 2 ^ keyHeight pk ∧
      x.2.take (36 + 32 * lenW w) = (seedSignature S hf w (keyHeight pk) seed i x.1).take (36 + 32 * lenW w))
    (msg sig : Bytes) (h : verify S msg sig pk w = ok true) :
    Collides (hf.prim S) (verifyCalls (hf.prim S) w msg sig pk ++
      nodeCalls (hf.prim S) w (lenW w) ((shake256 96 seed).take 32) ((shake256 96 seed).drop 64) (keyHeight pk) 0) ∨
    (sigIndex sig < 2 ^ keyHeight pk ∧
     (Covered (hf.prim S) w (keyRoot pk) (published.filter fun x => sigIndex x.2 = sigIndex sig) msg sig ∨
      ∃ ch d, (positionsUnder (hf.prim S) w (keyRoot pk) msg sig)[ch]? = some d ∧ d < w - 1 ∧
        LeadsTo (hf.prim S) (keySeed pk) (sigIndex sig) ch d (sigChain sig ch) (w - 1)
          (chain (hf.prim S) (keySeed pk) (sigIndex sig) ch 0 (w - 1)
            (wotsSecret (hf.prim S) ((shake256 96 seed).take 32) (sigIndex sig) ch)) ∧
        ∀ x ∈ published, sigIndex x.2 = sigIndex sig →
          ∃ e, (positionsUnder (hf.prim S) w (keyRoot pk) x.1 x.2)[ch]? = some e ∧ d < e ∧
            LeadsTo (hf.prim S) (keySeed pk) (sigIndex sig) ch d (sigChain sig ch) e (sigChain x.2 ch))) := by
  have hG := out32 S hf
  obtain ⟨p, k, q, hp, hsp, _⟩ := base_ok hw
  obtain ⟨wf, hf', hh', hr⟩ := verify_true_iff hw h
  rw [hh] at hh'
  cases hh'
  have hg := wf.2.1
  have hg1 : 4 ≤ keyHeight pk ∧ keyHeight pk ≤ 30 := by
    have := C20_verify_true S msg sig pk w hw h
    exact ⟨this.2.2.1, this.2.2.2.1⟩
  have h32 : 2 ^ keyHeight pk ≤ 2 ^ 30 := Nat.pow_le_pow_right (by omega) hg1.2
  rw [hseed] at hr
  rcases honest_root hG hw (by omega) hg1.2 wf.2.2 hroot hr with ⟨hlt, _, hall⟩ | hc
  swap
  · left
    rw [verifyCalls, hseed]
    exact hc
  right
  refine ⟨hlt, ?_⟩
  rw [or_iff_not_imp_left]
  intro hcov
  -- what a published signature with the index of `sig` holds
  have hpub : ∀ x ∈ published, sigIndex x.2 = sigIndex sig → ∀ ch, ch < lenW w → ∃ e,
      (positionsUnder (hf.prim S) w (keyRoot pk) x.1 x.2)[ch]? = some e ∧ e ≤ w - 1 ∧
      sigChain x.2 ch = chain (hf.prim S) ((shake256 96 seed).drop 64) (sigIndex sig) ch 0 e
        (wotsSecret (hf.prim S) ((shake256 96 seed).take 32) (sigIndex sig) ch) := by
    intro x hx hxi ch hch
    obtain ⟨i, hi, hs⟩ := hk x hx
    obtain ⟨r, ds, e1, e2, e3, e4, e5⟩ := signature_parts S hf hsp (keyHeight pk) ((shake256 96 seed).take 32)
      (((shake256 96 seed).drop 32).take 32) ((shake256 96 seed).drop 64) i (by omega) x.1
    obtain ⟨a1, a2, a3⟩ := e5 x.2 hs
    have hii : i = sigIndex sig := by rw [← hxi]; exact a1.symm
    have hc : ch < ds.length := by omega
    have hlt' := e4 _ (List.getElem_mem hc)
    refine ⟨ds[ch], ?_, by omega, ?_⟩
    · rw [positionsUnder, a1, a2, hroot, ← e2]
      exact List.getElem?_eq_getElem hc
    · rw [← hii]; exact a3 ch hc
  have hdl : (sigDigits (hf.prim S) w (keyRoot pk) msg sig).length = lenW w :=
    (sigFacts hG hw (keyRoot pk) msg wf.2.2).dlen
  -- a chain that is not covered
  obtain ⟨ch, d, hd, hdlt, hbef⟩ : ∃ ch d, (positionsUnder (hf.prim S) w (keyRoot pk) msg sig)[ch]? = some d ∧ d < w - 1 ∧
      ∀ x ∈ published, sigIndex x.2 = sigIndex sig → ∀ e,
        (positionsUnder (hf.prim S) w (keyRoot pk) x.1 x.2)[ch]? = some e → d < e := by
    by_cases hex : ∃ x ∈ published, sigIndex x.2 = sigIndex sig
    · rw [Covered] at hcov
      simp only [not_forall] at hcov
      obtain ⟨ch, d, hd, hno⟩ := hcov
      have hch : ch < lenW w := by
        have := (List.getElem?_eq_some_iff.mp hd).1
        rwa [← hdl]
      have hbef : ∀ x ∈ published, sigIndex x.2 = sigIndex sig → ∀ e,
          (positionsUnder (hf.prim S) w (keyRoot pk) x.1 x.2)[ch]? = some e → d < e := by
        intro x hx hxi e he
        apply Classical.byContradiction
        intro hle
        exact hno ⟨x, List.mem_filter.mpr ⟨hx, by simpa using hxi⟩, e, he, by omega⟩
      obtain ⟨x, hx, hxi⟩ := hex
      obtain ⟨e, he, hew, _⟩ := hpub x hx hxi ch hch
      have := hbef x hx hxi e he
      exact ⟨ch, d, hd, by omega, hbef⟩
    · obtain ⟨ch, d, hd, hdlt⟩ := small_digit hw
        (digest (hf.prim S) ((sig.drop 4).take 32) (keyRoot pk) (sigIndex sig) msg) (hG _)
      exact ⟨ch, d, hd, hdlt, fun x hx hxi => absurd ⟨x, hx, hxi⟩ hex⟩
  have hch : ch < lenW w := by
    have := (List.getElem?_eq_some_iff.mp hd).1
    rwa [← hdl]
  obtain ⟨d', g1, g2, g3⟩ := hall ch hch
  have : d' = d := Option.some.inj (g1.symm.trans hd)
  subst this
  rw [hseed]
  refine ⟨ch, d', hd, hdlt, g3 (w - 1) (by omega) (Nat.le_refl _), ?_⟩
  intro x hx hxi
  obtain ⟨e, he, hew, hval⟩ := hpub x hx hxi ch hch
  have hlt' := hbef x hx hxi e he
  refine ⟨e, he, hlt', ?_⟩
  rw [hval]
  exact g3 e (by omega) hew

/-- As `verify_splice`, with a randomiser of choice. -/
theorem verify_splice_r (S : Sha256) {msg msg' sig epk r : Bytes} {w : Nat} (hw : w = 2 ∨ w = 4 ∨ w = 16 ∨ w = 256)
    (h : verify S msg sig epk w = ok true) {hf : HashFn} (hh : HashFn.ofNat? (keyHash epk) = some hf) (hr32 : r.length = 32)
    (cs : List Bytes) (hcl : cs.length = lenW w) (hcs : ∀ x ∈ cs, x.length = 32)
    (heq : Spec.wotsPkFromSig (hf.prim S) w (keySeed epk) (sigIndex sig) cs
        (positionsUnder (hf.prim S) w (keyRoot epk) msg' (withRandomiser sig r)) =
      Spec.wotsPkFromSig (hf.prim S) w (keySeed epk) (sigIndex sig) (chunks sig 36 (lenW w))
        (positionsUnder (hf.prim S) w (keyRoot epk) msg sig)) :
    verify S msg' ((withRandomiser sig r).take 36 ++ cs.flatten ++ (withRandomiser sig r).drop (36 + 32 * lenW w)) epk w =
      ok true := by
  obtain ⟨wf, hf', hh', hr⟩ := verify_true_iff hw h
  rw [hh] at hh'
  cases hh'
  have hwl := wf.2.2
  have hL : sig.length = 36 + 32 * lenW w + 32 * keyHeight epk := by omega
  have hfl : cs.flatten.length = 32 * lenW w := by rw [length_flatten32 cs hcs, hcl]
  have h4 : (sig.take 4).length = 4 := by rw [List.length_take]; omega
  have hh36 : (sig.take 4 ++ r).length = 36 := by rw [List.length_append]; omega
  have u36 : (withRandomiser sig r).take 36 = sig.take 4 ++ r := by
    rw [withRandomiser, List.take_append_of_le_length (by omega), List.take_of_length_le (by omega)]
  have u4 : (withRandomiser sig r).take 4 = sig.take 4 := by
    rw [withRandomiser, List.append_assoc, List.take_append_of_le_length (by omega), List.take_of_length_le (by omega)]
  have ur : ((withRandomiser sig r).drop 4).take 32 = r := by
    rw [withRandomiser, List.append_assoc, List.drop_append, List.drop_eq_nil_of_le (by omega), h4, Nat.sub_self, List.nil_append,
      List.drop_zero, List.take_append_of_le_length (by omega), List.take_of_length_le (by omega)]
  have ud : (withRandomiser sig r).drop (36 + 32 * lenW w) = sig.drop (36 + 32 * lenW w) := by
    rw [withRandomiser, List.drop_append, List.drop_eq_nil_of_le (by omega), hh36, List.nil_append, List.drop_drop]
    congr 1; omega
  rw [positionsUnder, u4, ur] at heq
  rw [u36, ud, List.append_assoc]
  generalize hsig' : sig.take 4 ++ r ++ (cs.flatten ++ sig.drop (36 + 32 * lenW w)) = sig'
  have t4 : sig'.take 4 = sig.take 4 := by
    rw [← hsig', List.append_assoc, List.take_append_of_le_length (by omega), List.take_of_length_le (by omega)]
  have t36 : (sig'.drop 4).take 32 = r := by
    rw [← hsig', List.append_assoc, List.drop_append, List.drop_eq_nil_of_le (by omega), h4, Nat.sub_self, List.nil_append,
      List.drop_zero, List.take_append_of_le_length (by omega), List.take_of_length_le (by omega)]
  have hc : chunks sig' 36 (lenW w) = cs := by
    rw [← hsig', ← hcl]; exact Qrl.chunks_flatten _ cs hcs _ 36 hh36
  have hp' : chunks sig' (36 + 32 * lenW w) (keyHeight epk) = chunks sig (36 + 32 * lenW w) (keyHeight epk) := by
    have hdrop : sig'.drop (36 + 32 * lenW w) = sig.drop (36 + 32 * lenW w) := by
      rw [← hsig', ← List.append_assoc, List.drop_append_of_le_length (by rw [List.length_append]; omega),
        List.drop_eq_nil_of_le (by rw [List.length_append]; omega), List.nil_append]
    apply List.map_congr_left
    intro j _
    have e1 : sig'.drop (36 + 32 * lenW w + 32 * j) = (sig'.drop (36 + 32 * lenW w)).drop (32 * j) := by
      rw [List.drop_drop]
    have e2 : sig.drop (36 + 32 * lenW w + 32 * j) = (sig.drop (36 + 32 * lenW w)).drop (32 * j) := by
      rw [List.drop_drop]
    rw [e1, e2, hdrop]
  have hlen' : sig'.length = sig.length := by
    rw [← hsig', List.length_append, hh36, List.length_append, hfl, List.length_drop]; omega
  have hroot : rootFromSig (hf.prim S) w (keyHeight epk) (keyRoot epk) (keySeed epk) msg' sig' = keyRoot epk := by
    refine Eq.trans ?_ hr
    simp only [rootFromSig, t4, t36, hc, hp']
    congr 2
  rw [C20_verify_spec S msg' sig' epk w hw, if_pos ⟨wf.1, wf.2.1, by rw [hlen']; exact wf.2.2⟩, hh]
  simp only [hroot, decide_true]

/-- C77. **And coverage is enough**, with a randomiser the forger chooses freely: from known signatures with one one-time
key `i` (honest index, randomiser and chain values; `s0` honest throughout) and any 32 bytes `r`, whoever finds a message
whose chain positions under `r` are all covered has an accepted signature for it, carrying `r`. -/
theorem C77_forge_any_randomiser (S : Sha256) (hf : HashFn) (w : Nat) (hw : w = 2 ∨ w = 4 ∨ w = 16 ∨ w = 256) (h : Nat)
    (seed pk : Bytes) (hh : HashFn.ofNat? (keyHash pk) = some hf) (hseed : keySeed pk = (shake256 96 seed).drop 64)
    (hroot : keyRoot pk = Spec.node (hf.prim S) w (lenW w) ((shake256 96 seed).take 32) ((shake256 96 seed).drop 64) h 0)
    (i : Nat) (hi : i < 2 ^ 32) (m0 : Bytes)
    (h0 : verify S m0 (seedSignature S hf w h seed i m0) pk w = ok true) (known : List (Bytes × Bytes))
    (hk : ∀ x ∈ known, x.2.take (36 + 32 * lenW w) = (seedSignature S hf w h seed i x.1).take (36 + 32 * lenW w))
    (msg r : Bytes) (hr32 : r.length = 32)
    (hc : Covered (hf.prim S) w (keyRoot pk) known msg (withRandomiser (seedSignature S hf w h seed i m0) r)) :
    verify S msg (spliceForward (hf.prim S) w (keyRoot pk) (keySeed pk) known msg
      (withRandomiser (seedSignature S hf w h seed i m0) r)) pk w = ok true := by
  have hG := out32 S hf
  obtain ⟨p, k, q, hp, hsp, _⟩ := base_ok hw
  have h36 : 36 ≤ (seedSignature S hf w h seed i m0).length := by
    obtain ⟨wf, _⟩ := verify_true_iff hw h0
    have := wf.2.2
    omega
  have parts : ∀ m, ∃ ds : List Nat, ds.length = lenW w ∧ (∀ d ∈ ds, d < w) ∧ ∀ s : Bytes,
      s.take (36 + 32 * lenW w) = (seedSignature S hf w h seed i m).take (36 + 32 * lenW w) →
        byteVal (s.take 4) = i ∧ positionsUnder (hf.prim S) w (keyRoot pk) m s = ds ∧
        ∀ ch (hc : ch < ds.length), (s.drop (36 + 32 * ch)).take 32 =
          chain (hf.prim S) (keySeed pk) i ch 0 ds[ch] (wotsSecret (hf.prim S) ((shake256 96 seed).take 32) i ch) := by
    intro m
    obtain ⟨r', ds, e1, e2, e3, e4, e5⟩ := signature_parts S hf hsp h ((shake256 96 seed).take 32)
      (((shake256 96 seed).drop 32).take 32) ((shake256 96 seed).drop 64) i hi m
    refine ⟨ds, e3, e4, fun s hs => ?_⟩
    obtain ⟨a1, a2, a3⟩ := e5 s hs
    refine ⟨a1, ?_, by rw [hseed]; exact a3⟩
    rw [positionsUnder, a1, a2, hroot, e2]
  obtain ⟨D0, l0, d0, p0⟩ := parts m0
  obtain ⟨q1, q2, q3⟩ := p0 _ rfl
  generalize seedSignature S hf w h seed i m0 = s0 at *
  have hidx : sigIndex s0 = i := q1
  have hb4 : byteVal ((withRandomiser s0 r).take 4) = i := by
    have h4 : (s0.take 4).length = 4 := by rw [List.length_take]; omega
    rw [withRandomiser, List.append_assoc, List.take_append_of_le_length (by omega), List.take_of_length_le (by omega), q1]
  -- the positions needed
  have hMl : (positionsUnder (hf.prim S) w (keyRoot pk) msg (withRandomiser s0 r)).length = lenW w := by
    rw [positionsUnder, length_wotsDigits hsp _ (by rw [Spec.digest]; exact length_Hmsg ..), hsp.len]
  have hMlt : ∀ d ∈ positionsUnder (hf.prim S) w (keyRoot pk) msg (withRandomiser s0 r), d < w :=
    wotsDigits_lt hsp _ (by rw [Spec.digest]; exact length_Hmsg ..)
  have key : ∀ M, positionsUnder (hf.prim S) w (keyRoot pk) msg (withRandomiser s0 r) = M →
      verify S msg (spliceForward (hf.prim S) w (keyRoot pk) (keySeed pk) known msg (withRandomiser s0 r)) pk w = ok true := by
    intro M hM
    rw [hM] at hMl hMlt
    have hchain : ∀ ch, (hch : ch < lenW w) → (match known.find? fun x => (positionsUnder (hf.prim S) w (keyRoot pk) x.1 x.2).getD ch 0 ≤
          M.getD ch 0 with
        | none => []
        | some x => chain (hf.prim S) (keySeed pk) i ch
            ((positionsUnder (hf.prim S) w (keyRoot pk) x.1 x.2).getD ch 0)
            (M.getD ch 0 - (positionsUnder (hf.prim S) w (keyRoot pk) x.1 x.2).getD ch 0) ((x.2.drop (36 + 32 * ch)).take 32)) =
        chain (hf.prim S) (keySeed pk) i ch 0 (M[ch]'(by omega))
          (wotsSecret (hf.prim S) ((shake256 96 seed).take 32) i ch) := by
      intro ch hch
      have hm : ch < M.length := by omega
      cases hfind : known.find? fun x => (positionsUnder (hf.prim S) w (keyRoot pk) x.1 x.2).getD ch 0 ≤ M.getD ch 0 with
      | none =>
        exfalso
        obtain ⟨x, hx, d, e1, e2⟩ := hc ch M[ch] (by rw [hM]; exact List.getElem?_eq_getElem hm)
        have := List.find?_eq_none.mp hfind x hx
        simp only [decide_eq_true_eq] at this
        rw [List.getD_eq_getElem?_getD, List.getD_eq_getElem?_getD, e1, List.getElem?_eq_getElem hm] at this
        exact this e2
      | some x =>
        have hx := List.mem_of_find?_eq_some hfind
        have hle := List.find?_some hfind
        simp only [decide_eq_true_eq] at hle
        obtain ⟨D, lD, _, pD⟩ := parts x.1
        obtain ⟨_, b2, b3⟩ := pD x.2 (hk x hx)
        have hxl : ch < D.length := by omega
        simp only
        rw [b2, List.getD_eq_getElem?_getD, List.getD_eq_getElem?_getD, List.getElem?_eq_getElem hm,
          List.getElem?_eq_getElem hxl] at hle ⊢
        simp only [Option.getD_some] at hle ⊢
        rw [b3 ch hxl]
        have := chain_add (hf.prim S) (keySeed pk) i ch D[ch] (M[ch] - D[ch]) 0
          (wotsSecret (hf.prim S) ((shake256 96 seed).take 32) i ch)
        rw [Nat.zero_add, show D[ch] + (M[ch] - D[ch]) = M[ch] by omega] at this
        exact this
    have hpkw : ∀ (D : List Nat) (cs : List Bytes), D.length = lenW w → (∀ d ∈ D, d < w) → cs.length = lenW w →
        (∀ ch (h1 : ch < cs.length) (h2 : ch < D.length), cs[ch] =
        chain (hf.prim S) (keySeed pk) i ch 0 D[ch] (wotsSecret (hf.prim S) ((shake256 96 seed).take 32) i ch)) →
        Spec.wotsPkFromSig (hf.prim S) w (keySeed pk) i cs D =
          (List.range (lenW w)).map fun ch => chain (hf.prim S) (keySeed pk) i ch 0 (w - 1)
            (wotsSecret (hf.prim S) ((shake256 96 seed).take 32) i ch) := by
      intro D cs hD hDl hcl hcs
      apply List.ext_getElem?
      intro ch
      by_cases hch : ch < lenW w
      · have a1 : ch < cs.length := by omega
        have a2 : ch < D.length := by omega
        have a3 := hDl _ (List.getElem_mem a2)
        rw [getElem_pkFromSig _ _ _ _ _ _ a1 a2, hcs ch a1 a2, List.getElem?_map, List.getElem?_range hch]
        have := chain_add (hf.prim S) (keySeed pk) i ch D[ch] (w - 1 - D[ch]) 0
          (wotsSecret (hf.prim S) ((shake256 96 seed).take 32) i ch)
        rw [Nat.zero_add, show D[ch] + (w - 1 - D[ch]) = w - 1 by omega] at this
        rw [Option.map_some, this]
      · rw [List.getElem?_eq_none (by rw [length_pkFromSig, hD]; omega), List.getElem?_eq_none (by simp; omega)]
    refine verify_splice_r S hw h0 hh hr32 _ (by simp) ?_ ?_
    · intro x hx
      obtain ⟨ch, hch, rfl⟩ := List.mem_map.mp hx
      have hch := List.mem_range.mp hch
      simp only [hM, hb4]
      refine (congrArg List.length (hchain ch hch)).trans ?_
      exact chain_len hG _ _ _ _ _ _ (hG _)
    · rw [hidx, hM, q2, hpkw M _ hMl hMlt, hpkw D0 _ l0 d0]
      · rw [length_chunks]
      · intro ch h1 h2
        rw [← q3 ch h2]
        simp [chunks]
      · simp
      · intro ch h1 h2
        rw [List.getElem_map]
        simp only [List.getElem_range, hb4]
        exact hchain ch (by simpa using h1)
  exact key _ rfl

/-- What the theorems above need to know about an `XmssBasic` and everything it returned. -/
theorem basic_published {S : Sha256} {seed : Bytes} {height : UInt8} {hf : HashFn} {af w : Nat}
    (hw : w = 2 ∨ w = 4 ∨ w = 16 ∨ w = 256) (hh : GoodHeight height) (h24 : height.toNat ≤ 24) {o0 : XmssBase}
    (hnew : XmssBasic.new S seed height hf.toNat af w = ok o0) {pk : Bytes} (hpk : o0.getPK = ok pk)
    {cs : List Call} {rs : List Reply} {o : XmssBase} (hrun : runCalls (XmssBasic.call S) o0 cs = some (rs, o)) :
    HashFn.ofNat? (keyHash pk) = some hf ∧ keySeed pk = (shake256 96 seed).drop 64 ∧ keyHeight pk = height.toNat ∧
    keyRoot pk = Spec.node (hf.prim S) w (lenW w) ((shake256 96 seed).take 32) ((shake256 96 seed).drop 64) height.toNat 0 ∧
    ∀ x ∈ signedPairs cs rs, ∃ i, i < 2 ^ height.toNat ∧ x.2 = seedSignature S hf w height.toNat seed i x.1 ∧
      sigIndex x.2 = i ∧ verify S x.1 x.2 pk w = ok true := by
  have href := C18_basic_refines S seed height hf af w hw hh h24 o0 hnew cs
  have pairs : ∀ x ∈ signedPairs cs rs, ∃ k, k < 2 ^ height.toNat ∧ x.2 = seedSignature S hf w height.toNat seed k x.1 := by
    cases hl : looseRun (2 ^ height.toNat) (seedSignature S hf w height.toNat seed) 0 cs with
    | none => rw [hl] at href; rw [href] at hrun; cases hrun
    | some y =>
      obtain ⟨rs', j⟩ := y
      rw [hl] at href
      obtain ⟨o', e, _⟩ := href
      rw [hrun] at e
      cases e
      exact looseRun_pairs _ _ cs 0 _ _ hl
  have hs : seed.length = 48 := by
    apply Classical.byContradiction
    intro hne
    have := (C39_basic_throws S seed height hf.toNat af w hw .invalidArgument).mpr ⟨rfl, Or.inl hne⟩
    rw [this] at hnew; cases hnew
  obtain ⟨p, k, q, hp, h1, h2, e⟩ := basicNew_eq S seed height hf af w hw hs hh
  rw [e] at hnew
  cases hnew
  have h32 : 2 ^ height.toNat ≤ 2 ^ 24 := Nat.pow_le_pow_right (by omega) h24
  have hpk' := getPK_eq (keyOf S hf w height.toNat (lenW_pos hw) seed) _ 0
    (show XmssBase.sk (XmssBase.mk ⟨p, height.toNat⟩ hf.toNat af height ((keyOf S hf w height.toNat (lenW_pos hw) seed).sk 0) seed) = _ from rfl)
  have e := hpk
  rw [hpk'] at e
  cases e
  obtain ⟨f1, f2, f3, f4, f5⟩ := pk_fields (keyOf S hf w height.toNat (lenW_pos hw) seed)
    (XmssBase.mk ⟨p, height.toNat⟩ hf.toNat af height ((keyOf S hf w height.toNat (lenW_pos hw) seed).sk 0) seed) hf rfl hh
  refine ⟨by rw [f2, ofNat?_toNat], f5, f3, f4, ?_⟩
  intro x hx
  obtain ⟨i, hi, e⟩ := pairs x hx
  obtain ⟨pk', g1, g2⟩ := verify_honest S hf hw (keyOf S hf w height.toNat (lenW_pos hw) seed)
    (XmssBase.mk ⟨p, height.toNat⟩ hf.toNat af height ((keyOf S hf w height.toNat (lenW_pos hw) seed).sk 0) seed) 0 rfl rfl hh rfl i hi x.1
  rw [hpk'] at g1
  cases g1
  rw [e]
  exact ⟨i, hi, rfl, sigIndex_signature S hf w _ _ _ _ i x.1 (by omega), g2⟩

/-- The same for an `XmssFast` and a history that may also call `initialize_tree(16)`. -/
theorem fast_published {S : Sha256} {seed : Bytes} {height : UInt8} {hf : HashFn} {af : Nat} {o0 : XmssFast}
    (hnew : XmssFast.new S seed height hf.toNat af = ok o0) {pk : Bytes} (hpk : o0.getPK = ok pk)
    {cs : List FullCall} (h16 : ∀ w, FullCall.initializeTree w ∈ cs → w = 16) {rs : List FullReply} {o : XmssFast}
    (hrun : runFull S o0 cs = some (rs, o)) :
    HashFn.ofNat? (keyHash pk) = some hf ∧ keySeed pk = (shake256 96 seed).drop 64 ∧ keyHeight pk = height.toNat ∧
    keyRoot pk = Spec.node (hf.prim S) 16 (lenW 16) ((shake256 96 seed).take 32) ((shake256 96 seed).drop 64) height.toNat 0 ∧
    ∀ x ∈ fullPairs cs rs, ∃ i, i < 2 ^ height.toNat ∧ x.2 = seedSignature S hf 16 height.toNat seed i x.1 ∧
      sigIndex x.2 = i ∧ verify S x.1 x.2 pk 16 = ok true := by
  obtain ⟨o', e, _⟩ := C44_full_refines S seed height hf af o0 hnew cs (fun w hw => by have := h16 w hw; omega)
  rw [hrun] at e
  obtain ⟨rfl, rfl⟩ := e
  have pairs := fullRun_pairs (2 ^ height.toNat) (fun w => seedSignature S hf w height.toNat seed) 16 cs 0 h16
  obtain ⟨hs, hg, f, hf1, hf2, rfl, e2, e3, e4, p, k, q, hp, e5, HH⟩ := fast_fresh hnew
  rw [ofNat?_toNat] at hf2
  cases hf2
  have h32 := HH.pow_lt
  have hpk' := getPK_eq _ o0.toXmssBase 0 HH.hsk
  have e := hpk
  rw [hpk'] at e
  cases e
  obtain ⟨f1, f2, f3, f4, f5⟩ := pk_fields (keyOf S hf 16 o0.height.toNat (lenW_pos (by omega)) seed) o0.toXmssBase hf e2 hg
  refine ⟨by rw [f2, ofNat?_toNat], f5, f3, f4.trans HH.hroot, ?_⟩
  intro x hx
  obtain ⟨i, hi, e⟩ := pairs x hx
  obtain ⟨pk', g1, g2⟩ := verify_honest S hf (w := 16) (by omega) (keyOf S hf 16 o0.height.toNat (lenW_pos (by omega)) seed)
    o0.toXmssBase 0 HH.hsk HH.hof HH.hh HH.hroot i hi x.1
  rw [hpk'] at g1
  cases g1
  rw [e]
  exact ⟨i, hi, rfl, sigIndex_signature S hf 16 _ _ _ _ i x.1 (by omega), g2⟩

/-- C77. Any history of an `XmssBasic` (height up to 24, any of the four `w`), rewound with `setIndex` or not: what a pair
accepted under its key costs, the published signatures being all those it returned. -/
theorem C77_basic_price (S : Sha256) (seed : Bytes) (height : UInt8) (hf : HashFn) (af w : Nat)
    (hw : w = 2 ∨ w = 4 ∨ w = 16 ∨ w = 256) (hh : GoodHeight height) (h24 : height.toNat ≤ 24) (o0 : XmssBase)
    (hnew : XmssBasic.new S seed height hf.toNat af w = ok o0) (pk : Bytes) (hpk : o0.getPK = ok pk)
    (cs : List Call) (rs : List Reply) (o : XmssBase) (hrun : runCalls (XmssBasic.call S) o0 cs = some (rs, o))
    (msg sig : Bytes) (h : verify S msg sig pk w = ok true) :
    Collides (hf.prim S) (verifyCalls (hf.prim S) w msg sig pk ++
      nodeCalls (hf.prim S) w (lenW w) ((shake256 96 seed).take 32) ((shake256 96 seed).drop 64) height.toNat 0) ∨
    (sigIndex sig < 2 ^ height.toNat ∧
     (Covered (hf.prim S) w (keyRoot pk) ((signedPairs cs rs).filter fun x => sigIndex x.2 = sigIndex sig) msg sig ∨
      ∃ ch d, (positionsUnder (hf.prim S) w (keyRoot pk) msg sig)[ch]? = some d ∧ d < w - 1 ∧
        LeadsTo (hf.prim S) (keySeed pk) (sigIndex sig) ch d (sigChain sig ch) (w - 1)
          (chain (hf.prim S) (keySeed pk) (sigIndex sig) ch 0 (w - 1)
            (wotsSecret (hf.prim S) ((shake256 96 seed).take 32) (sigIndex sig) ch)) ∧
        ∀ x ∈ signedPairs cs rs, sigIndex x.2 = sigIndex sig →
          ∃ e, (positionsUnder (hf.prim S) w (keyRoot pk) x.1 x.2)[ch]? = some e ∧ d < e ∧
            LeadsTo (hf.prim S) (keySeed pk) (sigIndex sig) ch d (sigChain sig ch) e (sigChain x.2 ch))) := by
  obtain ⟨a1, a2, a3, a4, a5⟩ := basic_published hw hh h24 hnew hpk hrun
  have := C77_price S hf w hw seed pk a1 a2 (by rw [a3]; exact a4) (signedPairs cs rs) (by
    intro x hx
    obtain ⟨i, hi, e, _⟩ := a5 x hx
    exact ⟨i, by rw [a3]; exact hi, by rw [a3, e]⟩) msg sig h
  rwa [a3] at this

/-- C77. The same for an `XmssFast` and any history that may also call `initialize_tree(16)`. -/
theorem C77_fast_price (S : Sha256) (seed : Bytes) (height : UInt8) (hf : HashFn) (af : Nat) (o0 : XmssFast)
    (hnew : XmssFast.new S seed height hf.toNat af = ok o0) (pk : Bytes) (hpk : o0.getPK = ok pk)
    (cs : List FullCall) (h16 : ∀ w, FullCall.initializeTree w ∈ cs → w = 16) (rs : List FullReply) (o : XmssFast)
    (hrun : runFull S o0 cs = some (rs, o)) (msg sig : Bytes) (h : verify S msg sig pk 16 = ok true) :
    Collides (hf.prim S) (verifyCalls (hf.prim S) 16 msg sig pk ++
      nodeCalls (hf.prim S) 16 (lenW 16) ((shake256 96 seed).take 32) ((shake256 96 seed).drop 64) height.toNat 0) ∨
    (sigIndex sig < 2 ^ height.toNat ∧
     (Covered (hf.prim S) 16 (keyRoot pk) ((fullPairs cs rs).filter fun x => sigIndex x.2 = sigIndex sig) msg sig ∨
      ∃ ch d, (positionsUnder (hf.prim S) 16 (keyRoot pk) msg sig)[ch]? = some d ∧ d < 15 ∧
        LeadsTo (hf.prim S) (keySeed pk) (sigIndex sig) ch d (sigChain sig ch) 15
          (chain (hf.prim S) (keySeed pk) (sigIndex sig) ch 0 15
            (wotsSecret (hf.prim S) ((shake256 96 seed).take 32) (sigIndex sig) ch)) ∧
        ∀ x ∈ fullPairs cs rs, sigIndex x.2 = sigIndex sig →
          ∃ e, (positionsUnder (hf.prim S) 16 (keyRoot pk) x.1 x.2)[ch]? = some e ∧ d < e ∧
            LeadsTo (hf.prim S) (keySeed pk) (sigIndex sig) ch d (sigChain sig ch) e (sigChain x.2 ch))) := by
  obtain ⟨a1, a2, a3, a4, a5⟩ := fast_published hnew hpk h16 hrun
  have := C77_price S hf 16 (by omega) seed pk a1 a2 (by rw [a3]; exact a4) (fullPairs cs rs) (by
    intro x hx
    obtain ⟨i, hi, e, _⟩ := a5 x hx
    exact ⟨i, by rw [a3]; exact hi, by rw [a3, e]⟩) msg sig h
  rwa [a3] at this

/-- C77. Any history of an `XmssBasic`: the forger of C70 may choose the randomiser. From signatures returned with one index,
any 32 bytes `r` and any message whose chain positions under `r` they cover, an accepted signature for it. -/
theorem C77_basic_forge (S : Sha256) (seed : Bytes) (height : UInt8) (hf : HashFn) (af w : Nat)
    (hw : w = 2 ∨ w = 4 ∨ w = 16 ∨ w = 256) (hh : GoodHeight height) (h24 : height.toNat ≤ 24) (o0 : XmssBase)
    (hnew : XmssBasic.new S seed height hf.toNat af w = ok o0) (pk : Bytes) (hpk : o0.getPK = ok pk)
    (cs : List Call) (rs : List Reply) (o : XmssBase) (hrun : runCalls (XmssBasic.call S) o0 cs = some (rs, o))
    (m0 s0 : Bytes) (h0 : (m0, s0) ∈ signedPairs cs rs) (msg r : Bytes) (hr : r.length = 32)
    (hc : Covered (hf.prim S) w (keyRoot pk) ((signedPairs cs rs).filter fun x => sigIndex x.2 = sigIndex s0) msg
      (withRandomiser s0 r)) :
    verify S msg (spliceForward (hf.prim S) w (keyRoot pk) (keySeed pk)
      ((signedPairs cs rs).filter fun x => sigIndex x.2 = sigIndex s0) msg (withRandomiser s0 r)) pk w = ok true := by
  obtain ⟨a1, a2, a3, a4, a5⟩ := basic_published hw hh h24 hnew hpk hrun
  have h32 : 2 ^ height.toNat ≤ 2 ^ 24 := Nat.pow_le_pow_right (by omega) h24
  obtain ⟨i, hi, e, hix, hv⟩ := a5 _ h0
  simp only at e hix hv
  rw [e] at hv
  have hk : ∀ x ∈ (signedPairs cs rs).filter (fun x => sigIndex x.2 = sigIndex s0),
      x.2.take (36 + 32 * lenW w) = (seedSignature S hf w height.toNat seed i x.1).take (36 + 32 * lenW w) := by
    intro x hx
    obtain ⟨x1, x2⟩ := List.mem_filter.mp hx
    obtain ⟨j, hj, e', hjx, _⟩ := a5 x x1
    have : j = i := by rw [← hjx, ← hix]; simpa using x2
    rw [e', this]
  generalize (signedPairs cs rs).filter (fun x => sigIndex x.2 = sigIndex s0) = known at *
  rw [e] at hc ⊢
  exact C77_forge_any_randomiser S hf w hw height.toNat seed pk a1 a2 a4 i (by omega) m0 hv known hk msg r hr hc

/-- C77. **An `XmssBasic` whose caller never repeats an index is as good as an `XmssFast`** (`w` = 2, 4 or 16): the claim of
C64 holds for it. -/
theorem C77_basic_once (S : Sha256) (seed : Bytes) (height : UInt8) (hf : HashFn) (af w : Nat)
    (hw : w = 2 ∨ w = 4 ∨ w = 16) (hh : GoodHeight height) (h24 : height.toNat ≤ 24) (o0 : XmssBase)
    (hnew : XmssBasic.new S seed height hf.toNat af w = ok o0) (pk : Bytes) (hpk : o0.getPK = ok pk)
    (cs : List Call) (rs : List Reply) (o : XmssBase) (hrun : runCalls (XmssBasic.call S) o0 cs = some (rs, o))
    (honce : ((signedPairs cs rs).map fun x => sigIndex x.2).Nodup)
    (msg sig : Bytes) (h : verify S msg sig pk w = ok true) :
    (msg, sig) ∈ signedPairs cs rs ∨
    Collides (hf.prim S) (verifyCalls (hf.prim S) w msg sig pk ++
      (signedPairs cs rs).flatMap (fun x => verifyCalls (hf.prim S) w x.1 x.2 pk) ++
      nodeCalls (hf.prim S) w (lenW w) ((shake256 96 seed).take 32) ((shake256 96 seed).drop 64) height.toNat 0) ∨
    ∃ ch d, (positionsUnder (hf.prim S) w (keyRoot pk) msg sig)[ch]? = some d ∧ d < w - 1 ∧
      LeadsTo (hf.prim S) (keySeed pk) (sigIndex sig) ch d (sigChain sig ch) (w - 1)
        (chain (hf.prim S) (keySeed pk) (sigIndex sig) ch 0 (w - 1)
          (wotsSecret (hf.prim S) ((shake256 96 seed).take 32) (sigIndex sig) ch)) ∧
      ∀ x ∈ signedPairs cs rs, sigIndex x.2 = sigIndex sig →
        ∃ e, (positionsUnder (hf.prim S) w (keyRoot pk) x.1 x.2)[ch]? = some e ∧ d < e ∧
          LeadsTo (hf.prim S) (keySeed pk) (sigIndex sig) ch d (sigChain sig ch) e (sigChain x.2 ch) := by
  have hw4 : w = 2 ∨ w = 4 ∨ w = 16 ∨ w = 256 := by omega
  obtain ⟨a1, a2, a3, a4, a5⟩ := basic_published hw4 hh h24 hnew hpk hrun
  rcases C77_basic_price S seed height hf af w hw4 hh h24 o0 hnew pk hpk cs rs o hrun msg sig h with hc | ⟨_, hcov | hbef⟩
  · right; left
    refine hc.mono ?_
    intro z hz
    simp only [List.mem_append] at hz ⊢
    tauto
  · -- covered by one signature only: the same digest
    obtain ⟨p, k, q, hp, hsp, _⟩ := base_ok hw4
    have hG := out32 S hf
    have hL : ∀ (r : Bytes) i m, (digest (hf.prim S) r (keyRoot pk) i m).length = 32 := fun r i m => hG _
    have hlen := length_wotsDigits hsp (digest (hf.prim S) ((sig.drop 4).take 32) (keyRoot pk) (byteVal (sig.take 4)) msg) (hL _ _ _)
    have hpos : 0 < (positionsUnder (hf.prim S) w (keyRoot pk) msg sig).length := by
      rw [positionsUnder, hlen]
      have := lenW_pos hw4
      rw [← hsp.len]
      omega
    obtain ⟨x, hx, _⟩ := hcov 0 _ (List.getElem?_eq_getElem hpos)
    obtain ⟨hx1, hx2⟩ := List.mem_filter.mp hx
    have hx2 : sigIndex x.2 = sigIndex sig := by simpa using hx2
    have huniq : ∀ y ∈ signedPairs cs rs, sigIndex y.2 = sigIndex sig → y = x := fun y hy hyi =>
      List.inj_on_of_nodup_map honce hy hx1 (hyi.trans hx2.symm)
    obtain ⟨_, _, _, _, hv⟩ := a5 x hx1
    obtain ⟨hf', hh', hor⟩ := C25_no_second_message S msg x.1 sig x.2 pk w hw h hv hx2.symm
    rw [a1] at hh'
    cases hh'
    rcases hor with ⟨e1, e2⟩ | hc | ⟨ch, d, d', f1, f2, f3, f4⟩
    · left; rw [e1, e2]; exact hx1
    · right; left
      refine hc.mono ?_
      intro z hz
      simp only [List.mem_append, List.mem_flatMap] at hz ⊢
      rcases hz with hz | hz
      · exact Or.inl (Or.inl hz)
      · exact Or.inl (Or.inr ⟨x, hx1, hz⟩)
    · obtain ⟨y, hy, e, g1, g2⟩ := hcov ch d f1
      obtain ⟨hy1, hy2⟩ := List.mem_filter.mp hy
      rw [huniq y hy1 (by simpa using hy2)] at g1
      have : e = d' := Option.some.inj (g1.symm.trans f2)
      omega
  · exact Or.inr (Or.inr hbef)

/-- C77 from beginning to end with a toy hash: an `XmssBasic` signs 143 zero bytes, is set back to index 0 and signs 112 zero
bytes. For every 32-byte string `r`, anyone has an accepted signature of 158 zero bytes with randomiser `r`, and this pair is
not one the object produced; by `C77_basic_price` it falls under coverage, reaching before, or a collision, as it must. If the
object is not set back, no index is used twice. -/
theorem price_demo (S : Sha256) (hS : ∀ b, S.hash b = List.replicate 31 7 ++ [UInt8.ofNat b.length]) (seed : Bytes)
    (height : UInt8) (af : Nat) (hh : GoodHeight height) (h24 : height.toNat ≤ 24) (o0 : XmssBase)
    (hnew : XmssBasic.new S seed height (HashFn.toNat .sha2_256) af 16 = ok o0) (r : Bytes) (hr : r.length = 32) :
    ∃ pk s1 s2 o, o0.getPK = ok pk ∧
      runCalls (XmssBasic.call S) o0 [.sign (List.replicate 143 0), .setIndex 0, .sign (List.replicate 112 0)] =
        some ([.sig s1, .index 0, .sig s2], o) ∧
      verify S (List.replicate 158 0) (spliceForward (HashFn.prim S .sha2_256) 16 (keyRoot pk) (keySeed pk)
        [(List.replicate 143 0, s1), (List.replicate 112 0, s2)] (List.replicate 158 0) (withRandomiser s1 r)) pk 16 = ok true ∧
      ∃ s3 o', runCalls (XmssBasic.call S) o0 [.sign (List.replicate 143 0), .sign (List.replicate 112 0)] =
          some ([.sig s1, .sig s3], o') ∧
        ((signedPairs [.sign (List.replicate 143 0), .sign (List.replicate 112 0)] [.sig s1, .sig s3]).map
          fun x => sigIndex x.2).Nodup := by
  have hw : (16 : Nat) = 2 ∨ (16 : Nat) = 4 ∨ (16 : Nat) = 16 ∨ (16 : Nat) = 256 := by omega
  have h2 : 1 < 2 ^ height.toNat := Nat.one_lt_two_pow (by have := hh.1; omega)
  have h0 : 0 < 2 ^ height.toNat := by omega
  have e := C18_basic_refines S seed height .sha2_256 af 16 hw hh h24 o0 hnew
    [.sign (List.replicate 143 0), .setIndex 0, .sign (List.replicate 112 0)]
  have e' := C18_basic_refines S seed height .sha2_256 af 16 hw hh h24 o0 hnew
    [.sign (List.replicate 143 0), .sign (List.replicate 112 0)]
  simp only [looseRun, looseCall, h0, h2, if_true, Nat.zero_add, UInt32.toNat_zero] at e e'
  obtain ⟨o, e, _⟩ := e
  obtain ⟨o', e', _⟩ := e'
  have hix : ∀ i m, i < 2 ^ 32 → sigIndex (seedSignature S .sha2_256 16 height.toNat seed i m) = i := fun i m hi =>
    sigIndex_signature S .sha2_256 16 _ _ _ _ i m hi
  have hs : seed.length = 48 := ((C39_basic_succeeds S seed height _ af 16 hw).mp ⟨o0, hnew⟩).1
  obtain ⟨pk, hpk⟩ : ∃ pk, o0.getPK = ok pk := by
    obtain ⟨p, k, q, hp, h1, h2, ee⟩ := basicNew_eq S seed height .sha2_256 af 16 hw hs hh
    rw [ee] at hnew
    cases hnew
    exact ⟨_, getPK_eq (keyOf S .sha2_256 16 height.toNat (lenW_pos hw) seed) _ 0 rfl⟩
  obtain ⟨a1, a2, a3, a4, a5⟩ := basic_published hw hh h24 hnew hpk e
  have hlen : ∀ x ∈ signedPairs [.sign (List.replicate 143 0), .setIndex 0, .sign (List.replicate 112 0)]
      [.sig (seedSignature S .sha2_256 16 height.toNat seed 0 (List.replicate 143 0)), .index 0,
        .sig (seedSignature S .sha2_256 16 height.toNat seed 0 (List.replicate 112 0))], 36 ≤ x.2.length := by
    intro x hx
    obtain ⟨_, _, _, _, hv⟩ := a5 x hx
    obtain ⟨wf, _⟩ := verify_true_iff hw hv
    have := wf.2.2
    omega
  have hroot : (keyRoot pk).length = 32 := by
    rw [a4]
    have hG := out32 S .sha2_256
    cases hh' : height.toNat with
    | zero => have := hh.1; omega
    | succ n => exact hG _
  have hpairs : signedPairs [.sign (List.replicate 143 0), .setIndex 0, .sign (List.replicate 112 0)]
      [.sig (seedSignature S .sha2_256 16 height.toNat seed 0 (List.replicate 143 0)), .index 0,
        .sig (seedSignature S .sha2_256 16 height.toNat seed 0 (List.replicate 112 0))] =
      [(List.replicate 143 0, seedSignature S .sha2_256 16 height.toNat seed 0 (List.replicate 143 0)),
       (List.replicate 112 0, seedSignature S .sha2_256 16 height.toNat seed 0 (List.replicate 112 0))] := rfl
  have l1 := hlen (List.replicate 143 0, seedSignature S .sha2_256 16 height.toNat seed 0 (List.replicate 143 0))
    (by rw [hpairs]; exact List.mem_cons_self ..)
  have l2 := hlen (List.replicate 112 0, seedSignature S .sha2_256 16 height.toNat seed 0 (List.replicate 112 0))
    (by rw [hpairs]; exact List.mem_cons_of_mem _ (List.mem_cons_self ..))
  simp only at l1 l2
  have hfil : (signedPairs [.sign (List.replicate 143 0), .setIndex 0, .sign (List.replicate 112 0)]
      [.sig (seedSignature S .sha2_256 16 height.toNat seed 0 (List.replicate 143 0)), .index 0,
        .sig (seedSignature S .sha2_256 16 height.toNat seed 0 (List.replicate 112 0))]).filter
        (fun x => sigIndex x.2 = sigIndex (seedSignature S .sha2_256 16 height.toNat seed 0 (List.replicate 143 0))) =
      [(List.replicate 143 0, seedSignature S .sha2_256 16 height.toNat seed 0 (List.replicate 143 0)),
       (List.replicate 112 0, seedSignature S .sha2_256 16 height.toNat seed 0 (List.replicate 112 0))] := by
    rw [hpairs]
    apply List.filter_eq_self.mpr
    intro x hx
    have : sigIndex x.2 = 0 := by
      rcases List.mem_cons.mp hx with rfl | hx
      · exact hix 0 _ (by omega)
      · obtain rfl := List.mem_singleton.mp hx
        exact hix 0 _ (by omega)
    rw [this, hix 0 _ (by omega)]
    rfl
  refine ⟨pk, _, _, o, hpk, e, ?_, _, o', e', ?_⟩
  · have := C77_basic_forge S seed height .sha2_256 af 16 hw hh h24 o0 hnew pk hpk _ _ o e (List.replicate 143 0)
      (seedSignature S .sha2_256 16 height.toNat seed 0 (List.replicate 143 0)) (by rw [hpairs]; exact List.mem_cons_self ..)
      (List.replicate 158 0) r hr ?_
    · rw [hfil] at this
      exact this
    · rw [hfil]
      have hc := toy_covered S hS (keyRoot pk) _ _ hroot l1 l2
      intro ch d hd
      refine hc ch d ?_
      rw [toy_positions S hS 16 _ _ hroot l1]
      rw [toy_positions S hS 16 _ _ hroot] at hd
      · exact hd
      · simp only [withRandomiser, List.length_append, List.length_take, List.length_drop]
        omega
  · show [sigIndex _, sigIndex _].Nodup
    rw [hix 0 _ (by omega), hix 1 _ (by omega)]
    decide

example : ∃ o0 pk s1 s2 o, XmssBasic.new toySha zeroSeed 4 0 0 16 = ok o0 ∧ o0.getPK = ok pk ∧
    runCalls (XmssBasic.call toySha) o0 [.sign (List.replicate 143 0), .setIndex 0, .sign (List.replicate 112 0)] =
      some ([.sig s1, .index 0, .sig s2], o) ∧
    verify toySha (List.replicate 158 0) (spliceForward (HashFn.prim toySha .sha2_256) 16 (keyRoot pk) (keySeed pk)
      [(List.replicate 143 0, s1), (List.replicate 112 0, s2)] (List.replicate 158 0)
        (withRandomiser s1 (List.replicate 32 255))) pk 16 = ok true := by
  obtain ⟨o0, h⟩ := (C39_basic_succeeds toySha zeroSeed 4 (HashFn.toNat .sha2_256) 0 16 (by omega)).mpr
    ⟨rfl, goodHeight4, by decide⟩
  obtain ⟨pk, s1, s2, o, h1, h2, h3, _⟩ := price_demo toySha (fun _ => rfl) zeroSeed 4 0 goodHeight4 (by decide) o0 h
    (List.replicate 32 255) rfl
  exact ⟨o0, pk, s1, s2, o, h, h1, h2, h3⟩

end Qrl.Props
