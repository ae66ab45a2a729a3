import Verif.Proof.RustSim
/-!
# Simulation: leaves, trees, the simple signer and the verifier
-/

namespace Qrl.Rs

open Res

theorem Res.bind_assoc {α β γ : Type} (x : Res α) (f : α → Res β) (g : β → Res γ) :
    (x >>= f) >>= g = x >>= fun a => f a >>= g := by
  cases x <;> rfl

variable (S : Sha256) (hf : HashFn)

theorem getSeed_rs (sk : Bytes) (a : Adrs) (hs : 32 ≤ sk.length) :
    getSeed S hf sk a = ok (Qrl.getSeed S hf (sk.take 32) a) := by
  rw [getSeed]
  simp only [adrsBytes_eq]
  rw [prf_rs S hf _ sk (length_adrs _) hs]
  rfl

theorem length_getSeed (sk : Bytes) (a : Adrs) : (Qrl.getSeed S hf sk a).1.length = 32 := length_prf S hf _ _

theorem genLeafWots_sim (sk : Bytes) (p : XmssParams) (ps : Bytes) (la oa : Adrs) (hs : 32 ≤ sk.length)
    (hp : 32 ≤ ps.length) :
    Sim (Qrl.genLeafWots S hf (sk.take 32) p (ps.take 32) la oa) (genLeafWots S hf sk p ps la oa) := by
  unfold Qrl.genLeafWots genLeafWots
  rw [getSeed_rs S hf sk oa hs]
  have hl := length_getSeed S hf (sk.take 32) oa
  simp only [ok_bind]
  rw [wotsPkgen_rs S hf _ _ ps _ (by omega) hp, List.take_of_length_le (Nat.le_of_eq hl)]
  simp only [ok_bind]
  exact Sim.bind (lTree_sim S hf _ _ _ _ hp) (fun _ => Sim.rfl' _)

theorem treehashMerge_sim (ps : Bytes) (idx : Nat) (hp : 32 ≤ ps.length) :
    ∀ (so : Nat) (nodes : List Cell) (levels : List (Option Nat)) (a : Adrs),
    Sim (Qrl.treehashMerge S hf (ps.take 32) idx so nodes levels a) (treehashMerge S hf ps idx so nodes levels a)
  | 0, _, _, _ => Sim.rfl' _
  | 1, _, _, _ => Sim.rfl' _
  | so + 2, nodes, levels, a => by
    rw [Qrl.treehashMerge.eq_def, treehashMerge.eq_def]
    dsimp only
    refine Sim.bind (sim_rdLevel _ _) (fun x => Sim.bind (sim_rdLevel _ _) (fun y => ?_))
    refine Sim.ite Iff.rfl (fun _ => ?_) (fun _ => Sim.rfl' _)
    refine Sim.bind (sim_rdNode _ _) (fun l => Sim.bind (sim_rdNode _ _) (fun r => ?_))
    simp only [hashH_rs S hf _ ps _ hp, ok_bind]
    exact Sim.bind (sim_wr _ _ _) (fun n => Sim.bind (sim_wr _ _ _) (fun lv => treehashMerge_sim ps idx hp (so + 1) n lv _))

theorem treehashLoop_sim (sk : Bytes) (p : XmssParams) (ps : Bytes) (hs : 32 ≤ sk.length) (hp : 32 ≤ ps.length) :
    ∀ (m idx : Nat) (st : THStack) (oa la na : Adrs),
    Sim (Qrl.treehashLoop S hf (sk.take 32) p (ps.take 32) m idx st oa la na) (treehashLoop S hf sk p ps m idx st oa la na)
  | 0, _, _, _, _, _ => Sim.rfl' _
  | m + 1, idx, st, oa, la, na => by
    rw [Qrl.treehashLoop.eq_def, treehashLoop.eq_def]
    dsimp only
    refine Sim.bind (genLeafWots_sim S hf sk p ps _ _ hs hp) (fun x => ?_)
    refine Sim.bind (sim_wr _ _ _) (fun n => Sim.bind (sim_wr _ _ _) (fun lv => ?_))
    exact Sim.bind (treehashMerge_sim S hf ps idx hp _ _ _ _) (fun y => treehashLoop_sim sk p ps hs hp m _ _ _ _ _)

theorem shl1_lt (b : Build) {h : Nat} (hh : h < 32) : shl1 b h = ok (2 ^ h) := by rw [shl1.eq_def, if_pos hh]

theorem treehash_sim (b : Build) (height : Nat) (sk : Bytes) (p : XmssParams) (ps : Bytes) (a : Adrs)
    (hs : 32 ≤ sk.length) (hp : 32 ≤ ps.length) :
    Sim (Qrl.treehash S hf height 0 (sk.take 32) p (ps.take 32) a) (treehash b S hf height sk p ps a) := by
  unfold Qrl.treehash treehash
  by_cases h : height ≥ 32
  · dsimp only; rw [if_pos h]; exact Sim.ub _
  · dsimp only
    rw [if_neg h, shl1_lt b (by omega), ok_bind]
    exact Sim.bind (treehashLoop_sim S hf sk p ps hs hp _ _ _ _ _ _) (fun st => sim_rdNode _ _)

theorem u32_lt (b : Build) {x : Nat} (h : x < 2 ^ 32) : u32 b x = ok x := by rw [u32.eq_def, if_pos h]

theorem authLeaves_sim (b : Build) (sk : Bytes) (p : XmssParams) (ps : Bytes) (hs : 32 ≤ sk.length) (hp : 32 ≤ ps.length)
    (hh : p.h < 26) : ∀ (m i : Nat) (tree : List Cell) (la oa : Adrs), i + m ≤ 2 ^ p.h →
    Sim (Qrl.authLeaves S hf (sk.take 32) p (ps.take 32) m i tree la oa)
      (authLeaves b S hf sk p ps (2 ^ p.h) m i tree la oa)
  | 0, _, _, _, _, _ => Sim.rfl' _
  | m + 1, i, tree, la, oa, hi => by
    have hpw : 2 ^ p.h ≤ 2 ^ 25 := Nat.pow_le_pow_right (by omega) (by omega)
    rw [Qrl.authLeaves.eq_def, authLeaves.eq_def]
    dsimp only
    rw [u32_lt b (by omega), ok_bind, u32_lt b (by omega), ok_bind, u32_lt b (by omega), ok_bind]
    refine Sim.bind (genLeafWots_sim S hf sk p ps _ _ hs hp) (fun x => ?_)
    rw [show (2 ^ p.h * 32 + i * 32) / 32 = 2 ^ p.h + i from by omega]
    exact Sim.bind (sim_wr _ _ _) (fun t => authLeaves_sim b sk p ps hs hp hh m (i + 1) t _ _ (by omega))

theorem authRow_sim (ps : Bytes) (i : Nat) (hp : 32 ≤ ps.length) : ∀ (m j : Nat) (tree : List Cell) (a : Adrs),
    Sim (Qrl.authRow S hf (ps.take 32) i m j tree a) (authRow S hf ps i m j tree a)
  | 0, _, _, _ => Sim.rfl' _
  | m + 1, j, tree, a => by
    rw [Qrl.authRow.eq_def, authRow.eq_def]
    dsimp only
    refine Sim.bind (sim_rdNode _ _) (fun l => Sim.bind (sim_rdNode _ _) (fun r => ?_))
    simp only [hashH_rs S hf _ ps _ hp, ok_bind]
    exact Sim.bind (sim_wr _ _ _) (fun t => authRow_sim ps i hp m _ t _)

theorem authLevels_sim (ps : Bytes) (hp : 32 ≤ ps.length) (i : Nat) : ∀ (level : Nat) (tree : List Cell) (a : Adrs),
    Sim (Qrl.authLevels S hf (ps.take 32) i level tree a) (authLevels S hf ps i level tree a) := by
  induction i using Nat.strongRecOn with
  | ind i ih =>
    intro level tree a
    rw [Qrl.authLevels, authLevels]
    by_cases h : i > 1
    · rw [dif_pos h, dif_pos h]
      have : i >>> 1 = i / 2 := Nat.shiftRight_eq_div_pow i 1
      exact Sim.bind (authRow_sim S hf ps i hp _ _ _ _) (fun x => ih _ (by omega) _ _ _)
    · rw [dif_neg h, dif_neg h]
      exact Sim.rfl' _

theorem shr_lt (b : Build) {x s : Nat} (h : s < 32) : shr b x s = ok (x >>> s) := by rw [shr.eq_def, if_pos h]

theorem authCopy_sim (b : Build) (tree : List Cell) (h leafIdx : Nat) (hh : h < 26) (hl : tree.length ≤ 2 ^ 26)  :
    ∀ (m i : Nat), i + m ≤ h → Sim (Qrl.authCopy tree h leafIdx m i) (authCopy b tree (2 ^ h) leafIdx m i)
  | 0, _, _ => Sim.rfl' _
  | m + 1, i, hi => by
    rw [Qrl.authCopy.eq_def, authCopy.eq_def]
    dsimp only
    refine fun y hy => ?_
    rw [Outcome.bind_eq_ok] at hy
    obtain ⟨c, hc, hy⟩ := hy
    have hlt := (List.getElem?_eq_some_iff.mp (rdUse_some hc)).1
    rw [shr_lt b (by omega), ok_bind, Nat.mod_eq_of_lt (show i < 64 by omega)]
    generalize 2 ^ h >>> i = g at *
    have hm : ((leafIdx >>> i) ^^^ 1) % 2 ^ 32 = (leafIdx >>> i) ^^^ 1 := Nat.mod_eq_of_lt (by omega)
    rw [hm, u32_lt b (by omega), ok_bind, u32_lt b (by omega), ok_bind, u32_lt b (by omega), ok_bind,
      show (g * 32 + ((leafIdx >>> i) ^^^ 1) * 32) / 32 = g + ((leafIdx >>> i) ^^^ 1) from by omega,
      sim_rdNode _ _ c hc, ok_bind]
    exact Sim.bind (authCopy_sim b tree h leafIdx hh hl m (i + 1) (by omega)) (fun _ => Sim.rfl' _) y hy

theorem wr_length {α : Type} {l l' : List α} {i : Nat} {x : α} (h : Qrl.wr l i x = .ok l') : l'.length = l.length := by
  unfold Qrl.wr at h
  split at h
  · cases h; rw [List.length_set]
  · cases h

theorem length_authLeaves (sk : Bytes) (p : XmssParams) (ps : Bytes) : ∀ (m i : Nat) (tree : List Cell) (la oa : Adrs)
    (t' : List Cell), Qrl.authLeaves S hf sk p ps m i tree la oa = .ok t' → t'.length = tree.length
  | 0, _, tree, _, _, t', h => by cases h; rfl
  | m + 1, i, tree, la, oa, t', h => by
    rw [Qrl.authLeaves.eq_def] at h
    dsimp only at h
    rw [Outcome.bind_eq_ok] at h
    obtain ⟨x, _, h⟩ := h
    rw [Outcome.bind_eq_ok] at h
    obtain ⟨t, ht, h⟩ := h
    rw [length_authLeaves sk p ps m _ _ _ _ _ h, wr_length ht]

theorem length_authRow (ps : Bytes) (i : Nat) : ∀ (m j : Nat) (tree : List Cell) (a : Adrs) (t' : List Cell × Adrs),
    Qrl.authRow S hf ps i m j tree a = .ok t' → t'.1.length = tree.length
  | 0, _, _, _, _, h => by cases h; rfl
  | m + 1, j, tree, a, t', h => by
    rw [Qrl.authRow.eq_def] at h
    dsimp only at h
    rw [Outcome.bind_eq_ok] at h
    obtain ⟨l, _, h⟩ := h
    rw [Outcome.bind_eq_ok] at h
    obtain ⟨r, _, h⟩ := h
    rw [Outcome.bind_eq_ok] at h
    obtain ⟨t, ht, h⟩ := h
    rw [length_authRow ps i m _ _ _ _ h, wr_length ht]

theorem length_authLevels (ps : Bytes) (i : Nat) : ∀ (level : Nat) (tree : List Cell) (a : Adrs) (t' : List Cell),
    Qrl.authLevels S hf ps i level tree a = .ok t' → t'.length = tree.length := by
  induction i using Nat.strongRecOn with
  | ind i ih =>
    intro level tree a t' h
    rw [Qrl.authLevels] at h
    by_cases hi : i > 1
    · rw [dif_pos hi] at h
      have : i >>> 1 = i / 2 := Nat.shiftRight_eq_div_pow i 1
      rw [Outcome.bind_eq_ok] at h
      obtain ⟨x, hx, h⟩ := h
      rw [ih _ (by omega) _ _ _ _ h, length_authRow S hf ps i _ _ _ _ _ hx]
    · rw [dif_neg hi] at h
      cases h; rfl

theorem computeAuthpathWots_sim (b : Build) (leafIdx : Nat) (sk : Bytes) (p : XmssParams) (ps : Bytes) (a : Adrs)
    (hs : 32 ≤ sk.length) (hp : 32 ≤ ps.length) (hh : p.h < 26) :
    Sim (Qrl.computeAuthpathWots S hf leafIdx (sk.take 32) p (ps.take 32) a)
      (computeAuthpathWots b S hf leafIdx sk p ps a) := by
  have hpw : 2 ^ p.h ≤ 2 ^ 25 := Nat.pow_le_pow_right (by omega) (by omega)
  unfold Qrl.computeAuthpathWots computeAuthpathWots
  dsimp only
  rw [if_neg (by omega), shl1_lt b (by omega), ok_bind, u32_lt b (by omega), ok_bind, u32_lt b (by omega), ok_bind,
    Nat.mod_eq_of_lt (show 2 * 2 ^ p.h * 32 < 2 ^ 32 by omega)]
  refine Sim.bind' (authLeaves_sim S hf b sk p ps hs hp hh _ _ _ _ _ (by omega)) (fun t1 h1 => ?_)
  refine Sim.bind' (authLevels_sim S hf ps hp _ _ _ _) (fun t2 h2 => ?_)
  have hl1 := length_authLeaves S hf _ _ _ _ _ _ _ _ _ h1
  have hl2 := length_authLevels S hf _ _ _ _ _ _ h2
  rw [List.length_replicate] at hl1
  refine Sim.bind (authCopy_sim b t2 p.h leafIdx hh (by omega) _ _ (by omega)) (fun path => ?_)
  exact Sim.bind (sim_rdNode _ _) (fun _ => Sim.rfl' _)

theorem seed48 {seed : Bytes} (h : seed.length = 48) : Qrl.slice seed 0 48 = .ok seed := by
  rw [Qrl.slice, if_pos (by omega), List.drop_zero, ← h, List.take_length]

theorem genKeypair_sim (b : Build) (p : XmssParams) (seed : Bytes) (h : seed.length = 48) :
    Sim (Qrl.xmssGenkeypair S hf p seed) (xmssGenKeypair b S hf p seed) := by
  unfold Qrl.xmssGenkeypair xmssGenKeypair
  have hr := fipsShake256_short 96 seed (by omega)
  rw [h] at hr
  have hl : (Qrl.shake256 96 seed).length = 96 := length_shake256 96 seed
  rw [seed48 h, hr]
  simp only [ok_bind, Outcome.ok_bind]
  have e1 : (Qrl.shake256 96 seed).take 32 = (Qrl.shake256 96 seed ++ List.replicate 32 0).take 32 := by
    rw [List.take_append_of_le_length (by omega)]
  have e2 : (Qrl.shake256 96 seed).drop 64 = ((Qrl.shake256 96 seed ++ List.replicate 32 0).drop 64).take 32 := by
    rw [List.drop_append_of_le_length (by omega), List.take_append_of_le_length (by rw [List.length_drop]; omega),
      List.take_of_length_le (by rw [List.length_drop]; omega)]
  rw [e1, e2]
  exact Sim.bind (treehash_sim S hf b _ _ p _ _ (by rw [List.length_append]; omega)
    (by rw [List.length_drop, List.length_append, List.length_replicate]; omega)) (fun _ => Sim.rfl' _)

/-- The hash key of a signature made with the secret key `sk` at index `idx`. -/
def signKey (idx : Nat) (sk : Bytes) : Bytes :=
  Qrl.prf S hf (Qrl.toByte idx 32) ((sk.drop 36).take 32) ++ ((sk.drop 100).take 32) ++ Qrl.toByte idx 32

theorem slice_val {l x : Bytes} {off len : Nat} (h : Qrl.slice l off len = .ok x) :
    x = (l.drop off).take len ∧ x.length = len := by
  unfold Qrl.slice at h
  split at h
  · cases h
    exact ⟨rfl, by rw [List.length_take, List.length_drop]; omega⟩
  · cases h

theorem slice_reindex {sk x : Bytes} {i : Nat} (h : Qrl.slice (Qrl.idxBytes i ++ sk.drop 4) 100 32 = .ok x) :
    x = (sk.drop 100).take 32 ∧ x.length = 32 := by
  obtain ⟨e, l⟩ := slice_val h
  refine ⟨?_, l⟩
  rw [e, List.drop_append, show (Qrl.idxBytes i).length = 4 from rfl, List.drop_drop]
  rfl

theorem take32_of {x : Bytes} (h : x.length = 32) : x.take 32 = x := by rw [← h, List.take_length]

theorem signMsg_sim (b : Build) (p : XmssParams) (hlg : 1 ≤ p.wots.logW) (sk m m' : Bytes) (hh : p.h < 26) (hm : m.length + 128 < 2 ^ 32)
    (hseen : ∀ idx, Qrl.be32At sk = .ok idx → idx + 1 < 2 ^ 32 ∧ seen hf (signKey S hf idx sk) m = some m') :
    Sim (Qrl.xmssSignmsg S hf p sk m') (xmssSignMsg b S hf p sk m) := by
  unfold Qrl.xmssSignmsg xmssSignMsg
  refine Sim.bind' (be32At_sim _) (fun idx hidx => ?_)
  obtain ⟨hi, hsn⟩ := hseen idx hidx
  refine Sim.bind' (sim_slice _ _ _) (fun skSeed h1 => ?_)
  refine Sim.bind' (sim_slice _ _ _) (fun skPrf h2 => ?_)
  refine Sim.bind' (sim_slice _ _ _) (fun ps h3 => ?_)
  obtain ⟨-, l1⟩ := slice_val h1
  obtain ⟨e2, l2⟩ := slice_val h2
  obtain ⟨-, l3⟩ := slice_val h3
  dsimp only
  rw [u32_lt b hi]
  simp only [ok_bind, toByte_rs]
  rw [prf_rs S hf _ skPrf (length_toByte _ _) (by omega), take32_of l2]
  simp only [ok_bind]
  refine Sim.bind' (sim_slice _ _ _) (fun root h4 => ?_)
  obtain ⟨e4, l4⟩ := slice_reindex h4
  rw [hMsg_eq_seen S hf m _ (by rw [List.length_append, List.length_append, length_prf, l4, length_toByte]) hm]
  have hkey : Qrl.prf S hf (Qrl.toByte idx 32) skPrf ++ root ++ Qrl.toByte idx 32 = signKey S hf idx sk := by
    rw [signKey, e2, e4]
  rw [hkey, hsn]
  simp only [ok_bind]
  unfold signDigest
  dsimp only
  rw [getSeed_rs S hf _ _ (by omega), take32_of l1]
  simp only [ok_bind, Res.bind_assoc]
  have hl := length_getSeed S hf skSeed (setOTS (setType {} 0) idx)
  have w := wotsSign_sim S hf b p.wots hlg (Qrl.hMsg S hf m' (signKey S hf idx sk)) (Qrl.getSeed S hf skSeed (setOTS (setType {} 0) idx)).1 ps
    (Qrl.getSeed S hf skSeed (setOTS (setType {} 0) idx)).2 (by omega) (by omega)
  rw [take32_of hl, take32_of l3] at w
  refine Sim.bind w (fun x => ?_)
  have c := computeAuthpathWots_sim S hf b idx skSeed p ps x.2 (by omega) (by omega) hh
  rw [take32_of l1, take32_of l3] at c
  exact Sim.bind c (fun _ => Sim.rfl' _)

end Qrl.Rs
