import Verif.Model.RustKeyN
import Verif.Proof.RustN
import Verif.Proof.RustSlices
/-!
# Proofs about the Rust `xmss_gen_keypair` for every `n`
-/

namespace Qrl.Rs

open Res

variable (S : Sha256) {hf : HashFn}

theorem length_toByte32 (i : Nat) : (toByte i 32).length = 32 := by rw [toByte_rs, toByte_eq_be, length_be]

/-! ## Pairs without a hash function -/

theorem expandSeedN_uns {n : Nat} (hu : Uns hf n) (h1 : 1 ≤ n) (h2 : n < 2 ^ 28) (seed : Bytes) (hs : n ≤ seed.length) : ∀ (os : List Bytes) (i : Nat),
    expandSeedN S hf n seed i os = ok os
  | [], _ => rfl
  | o :: os, i => by
    rw [expandSeedN, prfN, coreHashN_uns S hu h1 _ _ _ _ _ _ (by omega) hs (Nat.le_of_eq (length_toByte32 i).symm), ok_bind]
    dsimp only
    rw [expandSeedN_uns hu h1 h2 seed hs os]; rfl

theorem pkgenLoopN_uns {n : Nat} (hu : Uns hf n) (h1 : 1 ≤ n) (h2 : n < 2 ^ 28) (p : WotsParams) (ps : Bytes) (hp : n ≤ ps.length) :
    ∀ (xs : List Bytes) (_ : ∀ x ∈ xs, x.length = n) (i : Nat) (a : Adrs), ∃ a', pkgenLoopN S hf n p ps i xs a = ok (xs, a')
  | [], _, _, a => ⟨a, rfl⟩
  | x :: xs, hx, i, a => by
    obtain ⟨a1, e1⟩ := genChainN_uns S hu h1 h2 p.w ps hp x (Nat.le_of_eq (hx x (List.mem_cons_self ..)).symm) (p.w - 1) 0 (setChain a i)
    obtain ⟨a2, e2⟩ := pkgenLoopN_uns hu h1 h2 p ps hp xs (fun y hy => hx y (List.mem_cons_of_mem _ hy)) (i + 1) a1
    exact ⟨a2, by rw [pkgenLoopN]; dsimp only; rw [e1, ok_bind]; dsimp only; rw [e2]; rfl⟩

theorem lTreeLoopN_zero {n : Nat} (hu : Uns hf n) (h1 : 1 ≤ n) (h2 : n < 2 ^ 28) (ps : Bytes) (hp : n ≤ ps.length) (z : Bytes) (hz : z.length = n)
    (l : Nat) : ∀ (h : Nat) (buf : List Bytes) (a : Adrs), (∀ x ∈ buf, x = z) → 1 ≤ l → l ≤ buf.length →
      ∃ a', lTreeLoopN S hf n ps l h buf a = ok (z, a') := by
  induction l using Nat.strongRecOn with
  | _ l ih =>
    intro h buf a hb hl1 hl
    have hb' : ∀ x ∈ buf, x.length = n := fun x hx => by rw [hb x hx, hz]
    rw [lTreeLoopN.eq_def]
    split
    · rename_i hl2
      have hh := half_lt hl2
      have h0 : l >>> 1 = l / 2 := Nat.shiftRight_eq_div_pow l 1
      obtain ⟨a1, e1⟩ := lTreeRowN_uns S hu h1 h2 ps hp buf hb' (l >>> 1) 0 a (by omega)
      rw [e1, ok_bind]
      dsimp only
      split
      · rename_i ho
        have hx : l - 1 < buf.length := by omega
        rw [rd_lt hx, ok_bind, wr, if_pos (by omega), ok_bind]
        refine ih _ (hh.2 ho) _ _ _ ?_ (by omega) (by rw [List.length_set]; omega)
        intro y hy
        rcases List.mem_or_eq_of_mem_set hy with hy | rfl
        · exact hb y hy
        · exact hb _ (List.getElem_mem hx)
      · exact ih _ hh.1 _ _ _ hb (by omega) (by omega)
    · have h0 : 0 < buf.length := by omega
      rw [rd_lt h0, ok_bind, hb _ (List.getElem_mem h0)]
      exact ⟨_, rfl⟩

theorem genLeafWotsN_uns {n : Nat} (hu : Uns hf n) (h1 : 1 ≤ n) (h2 : n < 2 ^ 28) (sk : Bytes) (hs : n ≤ sk.length) (p : XmssParams)
    (hl : 1 ≤ p.wots.len) (ps : Bytes) (hp : n ≤ ps.length) (la oa : Adrs) :
    ∃ la' oa', genLeafWotsN S hf n sk p ps la oa = ok (List.replicate n 0, la', oa') := by
  obtain ⟨a1, e1⟩ := pkgenLoopN_uns S hu h1 h2 p.wots ps hp (List.replicate p.wots.len (List.replicate n 0))
    (fun x hx => by rw [List.eq_of_mem_replicate hx, List.length_replicate]) 0 (setKeyAndMask (setHash (setChain oa 0) 0) 0)
  obtain ⟨a2, e2⟩ := lTreeLoopN_zero S hu h1 h2 ps hp (List.replicate n 0) List.length_replicate p.wots.len 0
    (List.replicate p.wots.len (List.replicate n 0)) (setTreeHeight la 0) (fun x hx => List.eq_of_mem_replicate hx) hl
    (by rw [List.length_replicate])
  refine ⟨a2, a1, ?_⟩
  rw [genLeafWotsN, getSeedN]
  dsimp only
  rw [prfN_uns S hu h1 h2 _ sk _ hs, ok_bind, ok_bind]
  dsimp only
  rw [wotsPkgenN, expandSeedN_uns S hu h1 h2 _ (by rw [List.length_replicate]), ok_bind, e1, ok_bind]
  dsimp only
  rw [lTreeN, e2]; rfl

/-- Every node on the stack is zero. -/
def ZeroNodes (n : Nat) (l : List Cell) : Prop := ∀ c ∈ l, c = none ∨ c = some (List.replicate n 0)

theorem rdNodeN_zero {n : Nat} {l : List Cell} (hz : ZeroNodes n l) {i : Nat} (h : i < l.length) : rdNodeN n l i = ok (List.replicate n 0) := by
  rw [rdNodeN, List.getElem?_eq_getElem h]
  rcases hz _ (List.getElem_mem h) with e | e <;> rw [e]

theorem ZeroNodes.set {n : Nat} {l : List Cell} (hz : ZeroNodes n l) (i : Nat) : ZeroNodes n (l.set i (some (List.replicate n 0))) := by
  intro c hc
  rcases List.mem_or_eq_of_mem_set hc with hc | rfl
  · exact hz c hc
  · exact .inr rfl

theorem rdNode_lt {l : List Cell} {i : Nat} {x : Bytes} (h : rdNode l i = ok x) : i < l.length := by
  rcases Nat.lt_or_ge i l.length with hi | hi
  · exact hi
  · rw [rdNode, List.getElem?_eq_none hi] at h; cases h

theorem wr_ok {α : Type} {l : List α} {i : Nat} {x : α} {l' : List α} (h : wr l i x = ok l') : i < l.length ∧ l' = l.set i x := by
  rw [wr] at h
  split at h
  · rename_i hi; cases h; exact ⟨hi, rfl⟩
  · cases h

/-- The control flow of `treehash` does not depend on the nodes: where it succeeds for `n = 32`, it does here, on a stack of the same shape. -/
theorem treehashMergeN_uns {n : Nat} (hu : Uns hf n) (h1 : 1 ≤ n) (h2 : n < 2 ^ 28) (ps : Bytes) (hp : n ≤ ps.length) (S' : Sha256) (hf' : HashFn)
    (ps' : Bytes) (idx : Nat) : ∀ (so : Nat) (nodes nodes' : List Cell) (levels : List (Option Nat)) (a a' : Adrs) (r : THStack × Adrs),
    ZeroNodes n nodes → nodes.length = nodes'.length → treehashMerge S' hf' ps' idx so nodes' levels a' = ok r →
    ∃ nd a1, treehashMergeN S hf n ps idx so nodes levels a = ok ({ nodes := nd, levels := r.1.levels, offset := r.1.offset }, a1) ∧
      ZeroNodes n nd ∧ nd.length = r.1.nodes.length
  | 0, nodes, nodes', levels, a, a', r, hz, hl, h => by
    rw [treehashMerge] at h
    · cases h; exact ⟨nodes, a, (by rw [treehashMergeN]; intro _ h; cases h), hz, hl⟩
    · intro _ h; cases h
  | 1, nodes, nodes', levels, a, a', r, hz, hl, h => by
    rw [treehashMerge] at h
    · cases h; exact ⟨nodes, a, (by rw [treehashMergeN]; intro _ h; cases h), hz, hl⟩
    · intro _ h; cases h
  | so + 2, nodes, nodes', levels, a, a', r, hz, hl, h => by
    rw [treehashMerge] at h
    rw [treehashMergeN]
    obtain ⟨la, e1, h⟩ := bind_eq_ok.mp h
    obtain ⟨lb, e2, h⟩ := bind_eq_ok.mp h
    rw [e1, ok_bind, e2, ok_bind]
    by_cases hc : la = lb
    · rw [if_pos hc] at h ⊢
      obtain ⟨x1, f1, h⟩ := bind_eq_ok.mp h
      obtain ⟨x2, f2, h⟩ := bind_eq_ok.mp h
      obtain ⟨⟨x3, a3⟩, f3, h⟩ := bind_eq_ok.mp h
      obtain ⟨nd', f4, h⟩ := bind_eq_ok.mp h
      obtain ⟨lv', f5, h⟩ := bind_eq_ok.mp h
      have i1 := rdNode_lt f1
      have i2 := rdNode_lt f2
      obtain ⟨-, rfl⟩ := wr_ok f4
      dsimp only
      rw [rdNodeN_zero hz (by omega), ok_bind, rdNodeN_zero hz (by omega), ok_bind]
      obtain ⟨a4, e4⟩ := hashHN_uns S hu h1 h2 (List.replicate n 0 ++ List.replicate n 0) ps (setTreeIndex (setTreeHeight a la) (idx >>> (la + 1)))
        (List.replicate n 0) hp (by rw [List.length_append, List.length_replicate]; omega)
      rw [e4, ok_bind]
      dsimp only
      rw [wr, if_pos (by omega), ok_bind, f5, ok_bind]
      exact treehashMergeN_uns hu h1 h2 ps hp S' hf' ps' idx (so + 1) _ _ lv' a4 a3 r (hz.set so)
        (by rw [List.length_set, List.length_set, hl]) h
    · rw [if_neg hc] at h ⊢
      cases h
      exact ⟨nodes, a, rfl, hz, hl⟩

theorem treehashLoopN_uns {n : Nat} (hu : Uns hf n) (h1 : 1 ≤ n) (h2 : n < 2 ^ 28) (sk : Bytes) (hs : n ≤ sk.length) (p : XmssParams)
    (hlen : 1 ≤ p.wots.len) (ps : Bytes) (hp : n ≤ ps.length) (S' : Sha256) (hf' : HashFn) (sk' : Bytes) (p' : XmssParams) (ps' : Bytes) :
    ∀ (m idx : Nat) (nodes : List Cell) (st' : THStack) (oa la na oa' la' na' : Adrs) (r : THStack),
    ZeroNodes n nodes → nodes.length = st'.nodes.length → treehashLoop S' hf' sk' p' ps' m idx st' oa' la' na' = ok r →
    ∃ nd, treehashLoopN S hf n sk p ps m idx { nodes := nodes, levels := st'.levels, offset := st'.offset } oa la na =
        ok { nodes := nd, levels := r.levels, offset := r.offset } ∧ ZeroNodes n nd ∧ nd.length = r.nodes.length
  | 0, idx, nodes, st', oa, la, na, oa', la', na', r, hz, hl, h => by
    rw [treehashLoop] at h; cases h
    exact ⟨nodes, rfl, hz, hl⟩
  | m + 1, idx, nodes, st', oa, la, na, oa', la', na', r, hz, hl, h => by
    rw [treehashLoop] at h
    obtain ⟨⟨lf, la2, oa2⟩, f1, h⟩ := bind_eq_ok.mp h
    obtain ⟨nd', f2, h⟩ := bind_eq_ok.mp h
    obtain ⟨lv', f3, h⟩ := bind_eq_ok.mp h
    obtain ⟨⟨st2, na2⟩, f4, hlast⟩ := bind_eq_ok.mp h
    obtain ⟨i2, rfl⟩ := wr_ok f2
    obtain ⟨la3, oa3, g1⟩ := genLeafWotsN_uns S hu h1 h2 sk hs p hlen ps hp (setLtree la idx) (setOTS oa idx)
    obtain ⟨nd, na3, g2, z2, l2⟩ := treehashMergeN_uns S hu h1 h2 ps hp S' hf' ps' idx (st'.offset + 1)
      (nodes.set st'.offset (some (List.replicate n 0))) _ lv' na na' (st2, na2) (hz.set _) (by rw [List.length_set, List.length_set, hl]) f4
    obtain ⟨nd3, g3, z3, l3⟩ := treehashLoopN_uns hu h1 h2 sk hs p hlen ps hp S' hf' sk' p' ps' m (idx + 1) nd st2 oa3 la3 na3 _ _ _ r z2 l2 hlast
    refine ⟨nd3, ?_, z3, l3⟩
    rw [treehashLoopN]
    dsimp only
    rw [g1, ok_bind]
    dsimp only
    rw [wr, if_pos (by omega), ok_bind, f3, ok_bind, g2, ok_bind]
    exact g3

theorem treehashN_uns {n : Nat} (hu : Uns hf n) (h1 : 1 ≤ n) (h2 : n < 2 ^ 28) (b : Build) {h : Nat} (hh : h < 32) (sk : Bytes) (hs : n ≤ sk.length)
    (p : XmssParams) (hlen : 1 ≤ p.wots.len) (ps : Bytes) (hp : n ≤ ps.length) (a : Adrs) :
    treehashN b S hf n h sk p ps a = ok (List.replicate n 0) := by
  have z32 : 32 ≤ (List.replicate 32 (0 : UInt8)).length := by rw [List.length_replicate]
  have hw : Spec.RangeW 16 := by decide
  have base := treehash_sim S hf b h (List.replicate 32 0) ⟨wotsParams 16, h⟩ (List.replicate 32 0) {} z32 z32 _
    (treehash_eq S hf ⟨wotsParams 16, h⟩ _ _ (rustLen_pos hw) h hh 0 0 0 0 0)
  rw [treehash] at base
  dsimp only at base
  rw [treehashN]
  dsimp only
  obtain ⟨ln, e1, base⟩ := bind_eq_ok.mp base
  obtain ⟨st, e2, base⟩ := bind_eq_ok.mp base
  obtain ⟨nd, e3, z3, l3⟩ := treehashLoopN_uns S hu h1 h2 sk hs p hlen ps hp S hf _ _ _ ln 0 (List.replicate (h + 1) none) _
    (derive a 0) (derive a 1) (derive a 2) _ _ _ st (fun c hc => .inl (List.eq_of_mem_replicate hc)) rfl e2
  rw [e1, ok_bind, e3, ok_bind]
  exact rdNodeN_zero z3 (by have := rdNode_lt base; omega)

theorem shake_seedN (m : Nat) (seed : Bytes) :
    fipsShake256 m seed 48 = if seed.length < 48 then panic else ok (Qrl.shake256 m (seed.take 48)) := by
  by_cases h : seed.length < 48
  · rw [if_pos h, fipsShake256, absorb_reads _ 136 seed 48 _ rfl (by omega) (by omega), Spec.shakeReads, if_pos (by omega),
      if_neg (by omega)]
    rfl
  · have hl : (seed.take 48).length = 48 := by rw [List.length_take]; omega
    have e := fipsShake256_short m (seed.take 48) (by omega)
    rw [hl] at e
    rw [if_neg h, ← e, fipsShake256, fipsShake256, absorb_reads _ 136 seed 48 _ rfl (by omega) (by omega),
      absorb_reads _ 136 (seed.take 48) 48 _ rfl (by omega) (by omega), Spec.shakeReads, Spec.shakeReads, if_pos (by omega),
      if_pos (by omega), if_pos (by omega), if_pos (by omega), List.take_take]
    rfl

/-- What key generation does to the slices around the computation of the root. -/
theorem genRawN {α : Type} (n : Nat) (pk sk seed : Bytes) (root : Bytes → Bytes → Res Bytes) (fin : Bytes → Bytes → α)
    (r : Bytes) (hn : r.length = n)
    (hr : ∀ a b, n ≤ a.length → n ≤ b.length → root a b = ok r) :
    (do
      let sk ← putInto sk 0 [0, 0, 0, 0]
      let randombits ← fipsShake256 (3 * n) seed 48
      let sk ← putInto sk 4 randombits
      let x ← slice sk (4 + 2 * n) n
      let pk ← putInto pk n x
      let root ← root (sk.drop 4) (sk.drop (4 + 2 * n))
      let pk ← putInto pk 0 root
      let root ← slice pk 0 n
      let sk ← putInto sk (4 + 3 * n) root
      ok (fin pk sk)) =
    if pk.length < 2 * n ∨ sk.length < 4 + 4 * n ∨ seed.length < 48 then panic
    else ok (fin (r ++ (Qrl.shake256 (3 * n) (seed.take 48)).drop (2 * n) ++ pk.drop (2 * n))
        (List.replicate 4 0 ++ Qrl.shake256 (3 * n) (seed.take 48) ++ r ++ sk.drop (4 + 4 * n))) := by
  by_cases c1 : sk.length < 4
  · rw [putInto_short (by simpa using c1), if_pos (by omega)]; rfl
  rw [putInto_ok (by simp; omega), ok_bind, shake_seedN]
  by_cases c2 : seed.length < 48
  · rw [if_pos c2, if_pos (by omega)]; rfl
  rw [if_neg c2, ok_bind]
  generalize hrb : Qrl.shake256 (3 * n) (seed.take 48) = rb
  have hl : rb.length = 3 * n := by rw [← hrb]; simp
  rw [List.take_zero, List.nil_append, show ([0, 0, 0, 0] : Bytes).length = 4 from rfl]
  by_cases c3 : sk.length < 4 + 3 * n
  · rw [putInto_short (by simp; omega), if_pos (by omega)]; rfl
  have e1 : putInto ([0, 0, 0, 0] ++ sk.drop (0 + 4)) 4 rb = ok ([0, 0, 0, 0] ++ rb ++ sk.drop (4 + 3 * n)) := by
    rw [putInto_ok (by simp; omega), hl]
    rw [show ([0, 0, 0, 0] ++ sk.drop (0 + 4) : Bytes).take 4 = [0, 0, 0, 0] from rfl, show 4 + 3 * n = ([0, 0, 0, 0] : Bytes).length + 3 * n from rfl, List.drop_length_add_append, List.drop_drop]
    rfl
  rw [e1, ok_bind]
  have hlen : ([0, 0, 0, 0] ++ rb ++ sk.drop (4 + 3 * n) : Bytes).length = sk.length := by simp; omega
  have s1 : slice ([0, 0, 0, 0] ++ rb ++ sk.drop (4 + 3 * n)) (4 + 2 * n) n = ok (rb.drop (2 * n)) := by
    rw [slice_append (by simp; omega), slice, if_pos (by simp; omega)]
    congr 1
    rw [List.take_of_length_le (by simp; omega), show 4 + 2 * n = ([0, 0, 0, 0] : Bytes).length + 2 * n from rfl, List.drop_length_add_append]
  rw [s1, ok_bind]
  have hd : (rb.drop (2 * n)).length = n := by rw [List.length_drop]; omega
  by_cases c4 : pk.length < 2 * n
  · rw [putInto_short (by omega), if_pos (by omega)]; rfl
  rw [putInto_ok (by omega), ok_bind]
  rw [hr _ _ (by rw [List.length_drop, hlen]; omega) (by rw [List.length_drop, hlen]; omega), ok_bind]
  rw [putInto_ok (by simp; omega), ok_bind, List.take_zero, List.nil_append, hn, slice_append (by omega), slice, if_pos (by omega), ok_bind]
  have hpk : (pk.take n ++ rb.drop (2 * n) ++ pk.drop (n + (rb.drop (2 * n)).length)).drop (0 + n) = rb.drop (2 * n) ++ pk.drop (2 * n) := by
    have : (pk.take n).length = n := by rw [List.length_take]; omega
    rw [List.append_assoc, Nat.zero_add, List.drop_left' this, hd, show n + n = 2 * n by omega]
  rw [hpk, List.drop_zero, List.take_of_length_le (by omega)]
  by_cases c5 : sk.length < 4 + 4 * n
  · rw [putInto_short (by rw [hlen]; omega), if_pos (by omega)]; rfl
  · have h100 : ([0, 0, 0, 0] ++ rb : Bytes).length = 4 + 3 * n := by rw [List.length_append, hl]; rfl
    rw [if_neg (by omega), putInto_ok (by rw [hlen]; omega), ok_bind, hn, List.take_left' h100]
    rw [show 4 + 3 * n + n = ([0, 0, 0, 0] ++ rb : Bytes).length + n by omega, List.drop_length_add_append, List.drop_drop,
      show 4 + 3 * n + n = 4 + 4 * n by omega]
    simp only [List.append_assoc]
    rfl

theorem xmssGenKeypairN_uns {n : Nat} (hu : Uns hf n) (h1 : 1 ≤ n) (h2 : n < 2 ^ 28) (b : Build) (p : XmssParams) (hh : p.h < 32)
    (hlen : 1 ≤ p.wots.len) (pk sk seed : Bytes) :
    xmssGenKeypairN b S hf n p pk sk seed =
    if pk.length < 2 * n ∨ sk.length < 4 + 4 * n ∨ seed.length < 48 then panic
    else ok (0, List.replicate n 0 ++ (Qrl.shake256 (3 * n) (seed.take 48)).drop (2 * n) ++ pk.drop (2 * n),
        List.replicate 4 0 ++ Qrl.shake256 (3 * n) (seed.take 48) ++ List.replicate n 0 ++ sk.drop (4 + 4 * n)) :=
  genRawN n pk sk seed (fun a c => treehashN b S hf n p.h a p c {}) (fun pk sk => (0, pk, sk)) (List.replicate n 0) List.length_replicate
    (fun a c ha hc => treehashN_uns S hu h1 h2 b hh a ha p hlen c hc {})

end Qrl.Rs
