import Verif.Spec.Memory
import Verif.Proof.Threads

/-!
The tree-hash instances go through whatever the node values are: two states of the same shape, worked on with different keys,
keep the same shape.
-/

namespace Qrl

open Outcome

/-- The same traversal state apart from the values of nodes. -/
structure SameTh (a b : BdsState) : Prop where
  stack : a.stack.map Option.isSome = b.stack.map Option.isSome
  levels : a.stacklevels = b.stacklevels
  off : a.stackoffset = b.stackoffset
  th : a.treehash.map (fun t => { t with node := none }) = b.treehash.map (fun t => { t with node := none })

theorem SameTh.refl (a : BdsState) : SameTh a a := ⟨rfl, rfl, rfl, rfl⟩

theorem SameTh.inst {a b : BdsState} (H : SameTh a b) {i : Nat} {t : TreeInst} (h : a.treehash[i]? = some t) :
    ∃ t', b.treehash[i]? = some t' ∧ t'.h = t.h ∧ t'.nextIdx = t.nextIdx ∧ t'.stackusage = t.stackusage ∧
      t'.completed = t.completed := by
  have := congrArg (fun l => l[i]?) H.th
  simp only [List.getElem?_map, h, Option.map_some] at this
  cases hb : b.treehash[i]? with
  | none => rw [hb] at this; cases this
  | some t' =>
    rw [hb] at this
    simp only [Option.map_some, Option.some.injEq, TreeInst.mk.injEq] at this
    exact ⟨t', rfl, this.1.symm, this.2.1.symm, this.2.2.1.symm, this.2.2.2.1.symm⟩

theorem rdUse_same {s s' : List Cell} (h : s.map Option.isSome = s'.map Option.isSome) {i : Nat} {x : Bytes}
    (hr : rdUse s i = ok x) : ∃ x', rdUse s' i = ok x' := by
  have := congrArg (fun l => l[i]?) h
  simp only [List.getElem?_map] at this
  rw [rdUse, rd] at hr
  cases hs : s[i]? with
  | none => rw [hs] at hr; cases hr
  | some c =>
    rw [hs] at hr this
    cases c with
    | none => cases hr
    | some y =>
      cases hs' : s'[i]? with
      | none => rw [hs'] at this; cases this
      | some c' =>
        rw [hs'] at this
        cases c' with
        | none => simp at this
        | some y' => exact ⟨y', rdUse_eq_ok hs'⟩

theorem minHeightLoop_same {a b : BdsState} (H : SameTh a b) (m : Nat) : ∀ i r,
    minHeightLoop a m i r = minHeightLoop b m i r := by
  induction m with
  | zero => intro i r; rfl
  | succ m ih =>
    intro i r
    rw [minHeightLoop, minHeightLoop, H.off, H.levels]
    simp only [ih]

theorem pickLevel_same {a b : BdsState} (H : SameTh a b) {p p' : XmssParams} (hp : p.h = p'.h) {m : Nat} : ∀ {i level lMin r : Nat},
    pickLevel a p m i level lMin = ok r → pickLevel b p' m i level lMin = ok r := by
  induction m with
  | zero => intro i level lMin r h; exact h
  | succ m ih =>
    intro i level lMin r h
    rw [pickLevel] at h ⊢
    obtain ⟨t, h1, h⟩ := bind_eq_ok.mp h
    have ht : a.treehash[i]? = some t := by
      rw [rd] at h1
      cases hx : a.treehash[i]? with
      | none => rw [hx] at h1; cases h1
      | some y => rw [hx] at h1; cases h1; rfl
    obtain ⟨t', g, g1, g2, g3, g4⟩ := H.inst ht
    rw [rd_eq_ok g, ok_bind, g4, g3]
    have key : ∀ low, (if low < lMin then pickLevel a p m (i + 1) i low else pickLevel a p m (i + 1) level lMin) = ok r →
        (if low < lMin then pickLevel b p' m (i + 1) i low else pickLevel b p' m (i + 1) level lMin) = ok r := by
      intro low hl
      by_cases hc : low < lMin
      · rw [if_pos hc] at hl ⊢; exact ih hl
      · rw [if_neg hc] at hl ⊢; exact ih hl
    dsimp only at h ⊢
    by_cases h3 : t.completed = true
    · rw [if_pos h3] at h ⊢
      rw [ok_bind] at h ⊢
      rw [← hp]
      exact key _ h
    · rw [if_neg h3] at h ⊢
      by_cases h4 : t.stackusage = 0
      · rw [if_pos h4] at h ⊢
        exact key _ h
      · rw [if_neg h4] at h ⊢
        obtain ⟨low, h5, h⟩ := bind_eq_ok.mp h
        have h5' : treehashMinheightOnStack b p' t' = ok low := by
          rw [← h5, treehashMinheightOnStack, treehashMinheightOnStack, minHeightLoop_same H, g3, hp]
        rw [h5', ok_bind]
        exact key _ h

theorem updateMerge_same (S : Sha256) (hf : HashFn) (ps ps' : Bytes) {s s' : List Cell}
    (hs : s.map Option.isSome = s'.map Option.isSome) (lv : List Nat) (n : Nat) (su : Nat) :
    ∀ {so : Nat} {nd nd' : Bytes} {nh : Nat} {ad ad' : Adrs} {r : MergeRes}, updateMerge S hf ps s lv n su so nd nh ad = ok r →
      ∃ x, updateMerge S hf ps' s' lv n su so nd' nh ad' = ok { r with node := x } := by
  induction su with
  | zero =>
    intro so nd nd' nh ad ad' r h
    rw [updateMerge] at h ⊢
    cases h
    exact ⟨_, rfl⟩
  | succ su ih =>
    intro so nd nd' nh ad ad' r h
    rw [updateMerge] at h ⊢
    by_cases h0 : so = 0
    · rw [if_pos h0] at h; cases h
    · rw [if_neg h0] at h ⊢
      obtain ⟨l, h1, h⟩ := bind_eq_ok.mp h
      rw [h1, ok_bind]
      by_cases hl : l = nh
      · rw [if_pos hl] at h ⊢
        obtain ⟨x, h2, h⟩ := bind_eq_ok.mp h
        obtain ⟨x', h2'⟩ := rdUse_same hs h2
        rw [h2', ok_bind]
        exact ih h
      · rw [if_neg hl] at h ⊢
        cases h
        exact ⟨_, rfl⟩

theorem wr_inv {α : Type} {l l' : List α} {i : Nat} {x : α} (h : wr l i x = ok l') : i < l.length ∧ l' = l.set i x := by
  rw [wr] at h
  by_cases hc : i < l.length
  · rw [if_pos hc] at h; cases h; exact ⟨hc, rfl⟩
  · rw [if_neg hc] at h; cases h

theorem rd_inv {α : Type} {l : List α} {i : Nat} {x : α} (h : rd l i = ok x) : l[i]? = some x := by
  rw [rd] at h
  cases hx : l[i]? with
  | none => rw [hx] at h; cases h
  | some y => rw [hx] at h; cases h; rfl

theorem treehashUpdate_same (S : Sha256) (hf : HashFn) (sk ps sk' ps' : Bytes) (p p' : XmssParams) (h1 : 1 ≤ p'.wots.len) {a b : BdsState}
    (H : SameTh a b) {level : Nat} {a' : BdsState} (h : treehashUpdate S hf level a sk p ps {} = ok a') :
    ∃ b', treehashUpdate S hf level b sk' p' ps' {} = ok b' ∧ SameTh a' b' := by
  rw [treehashUpdate] at h
  simp only [Adrs.derive, Adrs.setType, Adrs.setLtree, Adrs.setOTS] at h
  obtain ⟨t, e1, h⟩ := bind_eq_ok.mp h
  obtain ⟨t', g, g1, g2, g3, g4⟩ := H.inst (rd_inv e1)
  obtain ⟨⟨leaf, l2, l3⟩, e2, h⟩ := bind_eq_ok.mp h
  obtain ⟨m, e3, h⟩ := bind_eq_ok.mp h
  obtain ⟨b1, c1, d1, b2, c2, d2, e⟩ := genLeafWots_eq S hf sk' p' ps' h1 t'.nextIdx 0 0 0 0 0 0
  obtain ⟨x, e3'⟩ := updateMerge_same S hf ps ps' H.stack a.stacklevels t.nextIdx t.stackusage
    (nd' := Spec.leaf (hf.prim S) p'.wots.w p'.wots.len sk' ps' t'.nextIdx) (ad' := ⟨0, 0, 0, 2, 0, 0, 0, 0⟩) e3
  have hlen : a.treehash.length = b.treehash.length := by
    have := congrArg List.length H.th
    simpa using this
  have hslen : a.stack.length = b.stack.length := by
    have := congrArg List.length H.stack
    simpa using this
  have hlv : level < b.treehash.length := by
    rw [← hlen]
    exact (List.getElem?_eq_some_iff.mp (rd_inv e1)).1
  rw [treehashUpdate]
  simp only [Adrs.derive, Adrs.setType, Adrs.setLtree, Adrs.setOTS]
  rw [rd_eq_ok g, ok_bind]
  rw [e]
  simp only [ok_bind]
  rw [← H.levels, ← H.off, g2, g3]
  rw [g2] at e3'
  rw [e3', ok_bind]
  simp only [g1]
  by_cases hc : m.nodeheight = t.h
  · rw [if_pos hc] at h ⊢
    obtain ⟨ths, e4, h⟩ := bind_eq_ok.mp h
    obtain ⟨-, rfl⟩ := wr_inv e4
    cases h
    rw [wr_eq_ok _ hlv, ok_bind]
    refine ⟨_, rfl, ⟨H.stack, rfl, rfl, ?_⟩⟩
    simp only [List.map_set, H.th]
  · rw [if_neg hc] at h ⊢
    obtain ⟨stack, e4, h⟩ := bind_eq_ok.mp h
    obtain ⟨levels, e5, h⟩ := bind_eq_ok.mp h
    obtain ⟨ths, e6, h⟩ := bind_eq_ok.mp h
    obtain ⟨i4, rfl⟩ := wr_inv e4
    obtain ⟨i5, rfl⟩ := wr_inv e5
    obtain ⟨i6, rfl⟩ := wr_inv e6
    cases h
    rw [wr_eq_ok _ (by rw [← hslen]; exact i4), ok_bind, wr_eq_ok _ i5, ok_bind, wr_eq_ok _ hlv, ok_bind]
    refine ⟨_, rfl, ⟨?_, rfl, rfl, ?_⟩⟩
    · simp only [List.map_set, H.stack, Option.isSome_some]
    · simp only [List.map_set, H.th]
      rw [g4]

theorem bdsTreehashUpdate_same (S : Sha256) (hf : HashFn) (sk ps sk' ps' : Bytes) (p p' : XmssParams) (h1 : 1 ≤ p'.wots.len)
    (hp : p.h = p'.h) (n : Nat) : ∀ {a b a' : BdsState}, SameTh a b → bdsTreehashUpdate S hf sk p ps {} n a = ok a' →
    ∃ b', bdsTreehashUpdate S hf sk' p' ps' {} n b = ok b' ∧ SameTh a' b' := by
  induction n with
  | zero => intro a b a' H h; rw [bdsTreehashUpdate] at h ⊢; cases h; exact ⟨b, rfl, H⟩
  | succ n ih =>
    intro a b a' H h
    rw [bdsTreehashUpdate] at h ⊢
    obtain ⟨l, e1, h⟩ := bind_eq_ok.mp h
    have e1' := pickLevel_same H hp e1
    rw [hp] at e1'
    rw [e1', ok_bind]
    by_cases hc : l = p.h - 2
    · rw [if_pos hc] at h
      rw [if_pos (by rw [← hp]; exact hc)]
      cases h
      exact ⟨b, rfl, H⟩
    · rw [if_neg hc] at h
      rw [if_neg (by rw [← hp]; exact hc)]
      obtain ⟨a1, e2, h⟩ := bind_eq_ok.mp h
      obtain ⟨b1, e2', H1⟩ := treehashUpdate_same S hf sk ps sk' ps' p p' h1 H e2
      rw [e2', ok_bind]
      exact ih H1 h

theorem length_sigParts (S : Sha256) (hf : HashFn) {w : Nat} {p : WotsParams} {k q : Nat} (hp : SpecParams w p k q) (K : KeyParts)
    (i : Nat) (m : Bytes) : (sigParts S hf w K i m).length = 36 + 32 * Spec.lenW w := by
  rw [sigParts]
  simp only [List.length_append, idxBytes_eq, length_be, length_PRF, length_flatten32 _ (mem_wotsSig S hf K.skSeed K.ps i _)]
  simp only [Spec.wotsSig, List.length_map, List.length_zipIdx]
  rw [length_wotsDigits hp _ (length_Hmsg ..), hp.len]

section
variable {S : Sha256} {hf : HashFn} {w : Nat} {K : KeyParts} {p : WotsParams} {k q : Nat} {o0 : XmssFast}
variable (H : FastOk S hf w K p k q o0)
include H

/-- `sign` when the key in `_sk` has been replaced by another one with index 0, and the parameters by other ones, while the
traversal state is still the old one. -/
theorem FastOk.sign_replaced (i : Nat) {w' : Nat} (hw' : w' = 2 ∨ w' = 4 ∨ w' = 16 ∨ w' = 256) {p' : WotsParams} {k' q' : Nat}
    (hp' : SpecParams w' p' k' q') (h1 : 1 ≤ p'.len) (K' : KeyParts) (m : Bytes) :
    ∃ rest o2, rest.length = 32 * o0.height.toNat ∧ o2.getIndex = ok 1 ∧
      XmssFast.sign S { fastAt S hf K o0 i with sk := K'.sk 0, params := ⟨p', o0.height.toNat⟩ } m =
        .ret (sigParts S hf w' K' 0 m ++ rest) o2 := by
  have hlt := H.pow_lt
  have h30 := H.hh.2.1
  have hpos := Nat.two_pow_pos o0.height.toNat
  have h16 : 2 ^ 4 ≤ 2 ^ o0.height.toNat := Nat.pow_le_pow_right (by omega) H.hh.1
  generalize hj : min i (2 ^ o0.height.toNat - 1) = j
  have hjlt : j < 2 ^ o0.height.toNat := by omega
  obtain ⟨T, hinv⟩ := H.adv j hjlt
  obtain ⟨path, e1, -⟩ := H.path_at j hjlt
  have hl := H.length_path j hjlt path e1
  generalize hst : stAt S hf o0.params K.skSeed K.ps o0.state j = st at hinv e1
  -- the round
  obtain ⟨st1, r1, g1, g2, g3, g4⟩ := bdsRound_even S hf K'.skSeed K'.ps ⟨p', o0.height.toNat⟩ h1 H.hh.1 (i := 0) rfl
    (st := st) hinv.auth.lauth hinv.auth.lkeep
  -- the updates
  obtain ⟨st2, T2, e2, _⟩ := bdsTreehashUpdate_eq S hf K.skSeed K.ps ⟨p, o0.height.toNat⟩ H.hlen 0 0 0 0 0
      ((o0.height.toNat - 2) >>> 1) T st hinv.th
  have hsame : SameTh st st1 := ⟨by rw [g2], by rw [g3], by rw [g4], by rw [g1]⟩
  obtain ⟨st3, e3, -⟩ := bdsTreehashUpdate_same S hf K.skSeed K.ps K'.skSeed K'.ps ⟨p, o0.height.toNat⟩ ⟨p', o0.height.toNat⟩ h1 rfl
    _ hsame e2
  generalize ho : ({ fastAt S hf K o0 i with sk := K'.sk 0, params := ⟨p', o0.height.toNat⟩ } : XmssFast) = o
  have a1 : o.sk = K'.sk 0 := by rw [← ho]
  have a2 : o.params = ⟨p', o0.height.toNat⟩ := by rw [← ho]
  have a3 : o.state = st := by rw [← ho, ← hst, ← hj]; rfl
  have a4 : o.hashFunction = hf.toNat := by rw [← ho]; exact H.hof
  have a5 : o.height = o0.height := by rw [← ho]; rfl
  have a6 : o.getIndex = ok 0 := K'.getIndex _ 0 a1 (by omega)
  have b1 : o.setIndex S 0 = .ret 0 o := by
    rw [XmssFast.setIndex, a4, ofNat?_toNat]
    simp only
    rw [xmssfastUpdate, a2, a1]
    simp only
    rw [if_neg (by omega), K'.idx 0 (by omega)]
    simp only
    rw [if_neg (by omega), if_neg (by omega)]
    simp only [K'.seed_slice, K'.ps_slice, ok_bind, Nat.sub_self, advanceLoop, Step.ofOutcome, K'.reindex]
    rw [← a1, ← a2, ← a4]
  obtain ⟨b', c', d', e⟩ := wotsSign_spec S hf hp' (Spec.Hmsg (hf.prim S)
          (Spec.PRF (hf.prim S) K'.skPrf (Spec.be 32 0) ++ K'.root ++ Spec.be 32 0) m) K'.skSeed K'.ps 0 0 0 0
    (length_Hmsg ..)
  have b2 : xmssfastSignmsg S hf o.params o.sk o.state m = ok (sigParts S hf w' K' 0 m ++ path.flatten, (K'.sk 1, st3)) := by
    rw [a1, a2, a3]
    simp only [xmssfastSignmsg, K'.idx 0 (by omega), K'.seed_slice, K'.prf_slice, K'.ps_slice, ok_bind, K'.reindex,
      K'.root_slice, prf_eq, toByte_eq_be, hMsg_eq, Adrs.setType, Adrs.setOTS, getSeed_eq]
    rw [e]
    simp only [ok_bind]
    rw [e1, ok_bind, if_pos (by omega), bdsRound_addr]
    simp only [bdsTreehashUpdate_addr]
    rw [r1, ok_bind]
    rw [show bdsTreehashUpdate S hf K'.skSeed ⟨p', o0.height.toNat⟩ K'.ps {} ((o0.height.toNat - 2) >>> 1) st1 = ok st3 from e3]
    rfl
  refine ⟨path.flatten, { o with sk := K'.sk 1, state := st3 }, hl, K'.getIndex _ 1 rfl (by omega), ?_⟩
  rw [XmssFast.sign, show o.params.wots.w = w' by rw [a2]; exact hp'.pw, Props.C22_signature_size _ w' hw', a6]
  simp only
  rw [b1]
  simp only
  rw [withHash_of a4, b2]
  simp only [ok_bind]
  rw [fillBuffer_exact]
  · rfl
  · rw [List.length_append, length_sigParts S hf hp', hl, a5]

end

/-- The key that is all zeros. -/
def zeroKey : KeyParts where
  skSeed := List.replicate 32 0
  skPrf := List.replicate 32 0
  ps := List.replicate 32 0
  root := List.replicate 32 0
  l1 := rfl
  l2 := rfl
  l3 := rfl
  l4 := rfl

theorem zeroKey_sk : zeroKey.sk 0 = List.replicate 132 0 := by decide

end Qrl
