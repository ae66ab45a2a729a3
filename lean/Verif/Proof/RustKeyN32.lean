import Verif.Proof.RustKeyN
/-!
# The Rust crate's key generation for any `n` is, for `n = 32`, the one of the other claims
-/

namespace Qrl.Rs

open Res

variable (S : Sha256) (hf : HashFn)

theorem prfN_32_any (m key old : Bytes) (hm : m.length = 32) (hk : 32 ≤ key.length) :
    ∃ x, prf S hf m key = ok x ∧ prfN S hf 32 m key old = ok (0, x) ∧ x.length = 32 := by
  refine ⟨_, prf_rs S hf m key hm hk, ?_, length_prf ..⟩
  have := prf_rs S hf m key hm hk
  rw [prf] at this
  rw [prfN, coreHashN_32, this]
  rfl

theorem expandSeedN_32 (key : Bytes) (hk : 32 ≤ key.length) : ∀ (buf : List Bytes) (i : Nat),
    ∃ xs, expandSeedLoop S hf key i buf.length = ok xs ∧ expandSeedN S hf 32 key i buf = ok xs ∧ ∀ x ∈ xs, x.length = 32
  | [], _ => ⟨[], rfl, rfl, fun _ h => by cases h⟩
  | o :: os, i => by
    obtain ⟨x, e1, e2, hx⟩ := prfN_32_any S hf (toByte i 32) key o (length_toByte32 i) hk
    obtain ⟨xs, f1, f2, hxs⟩ := expandSeedN_32 key hk os (i + 1)
    refine ⟨x :: xs, ?_, ?_, ?_⟩
    · rw [List.length_cons, expandSeedLoop, e1, ok_bind, f1]; rfl
    · rw [expandSeedN, e2, ok_bind]; dsimp only; rw [f2]; rfl
    · intro z hz
      rcases List.mem_cons.mp hz with rfl | hz
      · exact hx
      · exact hxs z hz

theorem pkgenLoopN_32 (p : WotsParams) (ps : Bytes) (hp : 32 ≤ ps.length) : ∀ (xs : List Bytes) (i : Nat) (a : Adrs),
    (∀ x ∈ xs, x.length = 32) →
    ∃ ys a', pkgenLoop S hf p ps i xs a = ok (ys, a') ∧ pkgenLoopN S hf 32 p ps i xs a = ok (ys, a') ∧ ∀ y ∈ ys, y.length = 32
  | [], _, a, _ => ⟨[], a, rfl, rfl, fun _ h => by cases h⟩
  | x :: xs, i, a, hx => by
    obtain ⟨y, a1, e1, e2, hy⟩ := genChainN_32 S hf p.w ps hp (p.w - 1) x 0 (setChain a i) (hx x (List.mem_cons_self ..))
    obtain ⟨ys, a2, f1, f2, hys⟩ := pkgenLoopN_32 p ps hp xs (i + 1) a1 (fun z hz => hx z (List.mem_cons_of_mem _ hz))
    refine ⟨y :: ys, a2, ?_, ?_, ?_⟩
    · rw [pkgenLoop]; dsimp only; rw [e1, ok_bind]; dsimp only; rw [f1]; rfl
    · rw [pkgenLoopN]; dsimp only; rw [e2, ok_bind]; dsimp only; rw [f2]; rfl
    · intro z hz
      rcases List.mem_cons.mp hz with rfl | hz
      · exact hy
      · exact hys z hz

theorem genLeafWotsN_32 (sk : Bytes) (hs : 32 ≤ sk.length) (p : XmssParams) (ps : Bytes) (hp : 32 ≤ ps.length) (la oa : Adrs) :
    genLeafWotsN S hf 32 sk p ps la oa = genLeafWots S hf sk p ps la oa ∧
    ∀ r, genLeafWots S hf sk p ps la oa = ok r → r.1.length = 32 := by
  rw [genLeafWotsN, genLeafWots, getSeedN, getSeed]
  dsimp only
  obtain ⟨x, e1, e2, hx⟩ := prfN_32_any S hf (adrsBytes (setKeyAndMask (setHash (setChain oa 0) 0) 0)) sk (List.replicate 32 0)
    (length_adrsBytes _) hs
  rw [e1, e2, ok_bind, ok_bind]
  dsimp only
  rw [ok_bind, ok_bind]
  dsimp only
  rw [wotsPkgenN, wotsPkgen, expandSeed]
  obtain ⟨xs, f1, f2, hxs⟩ := expandSeedN_32 S hf x (by omega) (List.replicate p.wots.len (List.replicate 32 0)) 0
  rw [List.length_replicate] at f1
  rw [f1, f2, ok_bind, ok_bind]
  obtain ⟨ys, a', g1, g2, hys⟩ := pkgenLoopN_32 S hf p.wots ps hp xs 0 (setKeyAndMask (setHash (setChain oa 0) 0) 0) hxs
  rw [g1, g2, ok_bind, ok_bind]
  dsimp only
  rw [lTreeN, lTree]
  obtain ⟨l1, l2⟩ := lTreeLoopN_32 S hf ps hp p.wots.len 0 ys (setTreeHeight la 0) hys
  rw [l1]
  refine ⟨rfl, fun r h => ?_⟩
  obtain ⟨r', h1, h2⟩ := bind_eq_ok.mp h
  cases h2
  exact l2 _ h1

/-- Every node on the stack has 32 bytes. -/
def Nodes32 (l : List Cell) : Prop := ∀ c ∈ l, ∀ x, c = some x → x.length = 32

theorem Nodes32.set {l : List Cell} (hz : Nodes32 l) (i : Nat) {x : Bytes} (hx : x.length = 32) : Nodes32 (l.set i (some x)) := by
  intro c hc
  rcases List.mem_or_eq_of_mem_set hc with hc | rfl
  · exact hz c hc
  · intro y hy; cases hy; exact hx

theorem Nodes32.rd {l : List Cell} (hz : Nodes32 l) {i : Nat} {x : Bytes} (h : rdNode l i = ok x) : x.length = 32 := by
  rw [rdNode] at h
  split at h
  · rename_i y hy; cases h; exact hz _ (List.mem_of_getElem? hy) _ rfl
  · cases h; exact List.length_replicate
  · cases h

theorem treehashMergeN_32 (ps : Bytes) (hp : 32 ≤ ps.length) (idx : Nat) : ∀ (so : Nat) (nodes : List Cell) (levels : List (Option Nat)) (a : Adrs),
    Nodes32 nodes →
    treehashMergeN S hf 32 ps idx so nodes levels a = treehashMerge S hf ps idx so nodes levels a ∧
    ∀ r, treehashMerge S hf ps idx so nodes levels a = ok r → Nodes32 r.1.nodes
  | 0, nodes, levels, a, hz => by
    rw [treehashMergeN, treehashMerge]
    · exact ⟨rfl, fun r h => by cases h; exact hz⟩
    all_goals intro _ h; cases h
  | 1, nodes, levels, a, hz => by
    rw [treehashMergeN, treehashMerge]
    · exact ⟨rfl, fun r h => by cases h; exact hz⟩
    all_goals intro _ h; cases h
  | so + 2, nodes, levels, a, hz => by
    rw [treehashMergeN, treehashMerge]
    cases rdLevel levels (so + 1) with
    | err e => exact ⟨rfl, fun r h => by cases h⟩
    | panic => exact ⟨rfl, fun r h => by cases h⟩
    | ok la =>
    rw [ok_bind, ok_bind]
    cases rdLevel levels so with
    | err e => exact ⟨rfl, fun r h => by cases h⟩
    | panic => exact ⟨rfl, fun r h => by cases h⟩
    | ok lb =>
    rw [ok_bind, ok_bind]
    by_cases hc : la = lb
    · rw [if_pos hc, if_pos hc]
      dsimp only
      rw [show rdNodeN 32 nodes so = rdNode nodes so from rfl, show rdNodeN 32 nodes (so + 1) = rdNode nodes (so + 1) from rfl]
      cases e1 : rdNode nodes so with
      | err e => exact ⟨rfl, fun r h => by cases h⟩
      | panic => exact ⟨rfl, fun r h => by cases h⟩
      | ok l =>
      rw [ok_bind, ok_bind]
      cases e2 : rdNode nodes (so + 1) with
      | err e => exact ⟨rfl, fun r h => by cases h⟩
      | panic => exact ⟨rfl, fun r h => by cases h⟩
      | ok r =>
      rw [ok_bind, ok_bind]
      obtain ⟨x, a1, f1, f2, hx⟩ := hashHN_32 S hf (l ++ r) ps (setTreeIndex (setTreeHeight a la) (idx >>> (la + 1))) l
        (by rw [List.length_append, hz.rd e1, hz.rd e2]) hp
      rw [f1, f2, ok_bind, ok_bind]
      dsimp only
      cases w1 : wr nodes so (some x) with
      | err e => exact ⟨rfl, fun r h => by cases h⟩
      | panic => exact ⟨rfl, fun r h => by cases h⟩
      | ok nd =>
      rw [ok_bind, ok_bind]
      cases w2 : wr levels so (some (lb + 1)) with
      | err e => exact ⟨rfl, fun r h => by cases h⟩
      | panic => exact ⟨rfl, fun r h => by cases h⟩
      | ok lv =>
      rw [ok_bind, ok_bind]
      have hnd := (wr_ok w1).2
      exact treehashMergeN_32 ps hp idx (so + 1) nd lv a1 (by rw [hnd]; exact hz.set so hx)
    · rw [if_neg hc, if_neg hc]
      exact ⟨rfl, fun r h => by cases h; exact hz⟩

theorem treehashLoopN_32 (sk : Bytes) (hs : 32 ≤ sk.length) (p : XmssParams) (ps : Bytes) (hp : 32 ≤ ps.length) :
    ∀ (m idx : Nat) (st : THStack) (oa la na : Adrs), Nodes32 st.nodes →
    treehashLoopN S hf 32 sk p ps m idx st oa la na = treehashLoop S hf sk p ps m idx st oa la na
  | 0, _, _, _, _, _, _ => rfl
  | m + 1, idx, st, oa, la, na, hz => by
    rw [treehashLoopN, treehashLoop]
    dsimp only
    obtain ⟨e1, hl⟩ := genLeafWotsN_32 S hf sk hs p ps hp (setLtree la idx) (setOTS oa idx)
    rw [e1]
    cases e2 : genLeafWots S hf sk p ps (setLtree la idx) (setOTS oa idx) with
    | err e => rw [err_bind, err_bind]
    | panic => rw [panic_bind, panic_bind]
    | ok r =>
    have hr := hl r e2
    rw [ok_bind, ok_bind]
    cases w1 : wr st.nodes st.offset (some r.1) with
    | err e => rw [err_bind, err_bind]
    | panic => rw [panic_bind, panic_bind]
    | ok nd =>
    rw [ok_bind, ok_bind]
    cases w2 : wr st.levels st.offset (some 0) with
    | err e => rw [err_bind, err_bind]
    | panic => rw [panic_bind, panic_bind]
    | ok lv =>
    rw [ok_bind, ok_bind]
    have hnd := (wr_ok w1).2
    obtain ⟨f1, f2⟩ := treehashMergeN_32 S hf ps hp idx (st.offset + 1) nd lv na (by rw [hnd]; exact hz.set _ hr)
    rw [f1]
    cases e3 : treehashMerge S hf ps idx (st.offset + 1) nd lv na with
    | err e => rw [err_bind, err_bind]
    | panic => rw [panic_bind, panic_bind]
    | ok r2 =>
    rw [ok_bind, ok_bind]
    exact treehashLoopN_32 sk hs p ps hp m (idx + 1) r2.1 _ _ _ (f2 r2 e3)

theorem treehashN_32 (b : Build) (h : Nat) (sk : Bytes) (hs : 32 ≤ sk.length) (p : XmssParams) (ps : Bytes) (hp : 32 ≤ ps.length) (a : Adrs) :
    treehashN b S hf 32 h sk p ps a = treehash b S hf h sk p ps a := by
  rw [treehashN, treehash]
  dsimp only
  cases shl1 b h with
  | err e => rw [err_bind, err_bind]
  | panic => rw [panic_bind, panic_bind]
  | ok ln =>
  rw [ok_bind, ok_bind, treehashLoopN_32 S hf sk hs p ps hp _ _ _ _ _ _ (fun c hc x hx => by rw [List.eq_of_mem_replicate hc] at hx; cases hx)]
  rfl

theorem putInto_length {buf data out : Bytes} {off : Nat} (h : putInto buf off data = ok out) : off + data.length ≤ buf.length ∧ out.length = buf.length := by
  rw [putInto] at h
  split at h
  · rename_i hc; cases h; refine ⟨hc, ?_⟩; simp; omega
  · cases h

theorem xmssGenKeypairN_32 (b : Build) (p : XmssParams) (pk sk seed : Bytes) :
    xmssGenKeypairN b S hf 32 p pk sk seed = xmssGenKeypairRaw b S hf p pk sk seed := by
  rw [xmssGenKeypairN, xmssGenKeypairRaw]
  simp only [Nat.reduceMul, Nat.reduceAdd]
  cases e1 : putInto sk 0 [0, 0, 0, 0] with
  | err e => rw [err_bind, err_bind]
  | panic => rw [panic_bind, panic_bind]
  | ok sk1 =>
  rw [ok_bind, ok_bind, shake_seed]
  by_cases c2 : seed.length < 48
  · rw [if_pos c2, panic_bind, panic_bind]
  have hx : (Qrl.shake256 96 (seed.take 48)).length = 96 := by simp
  generalize Qrl.shake256 96 (seed.take 48) = x at hx ⊢
  rw [if_neg c2, ok_bind, ok_bind]
  cases e2 : putInto sk1 4 x with
  | err e => rw [err_bind, err_bind]
  | panic => rw [panic_bind, panic_bind]
  | ok sk2 =>
  rw [ok_bind, ok_bind]
  obtain ⟨l1, l2⟩ := putInto_length e2
  rw [treehashN_32 S hf b p.h (sk2.drop 4) (by rw [List.length_drop]; omega) p (sk2.drop 68) (by rw [List.length_drop]; omega)]

end Qrl.Rs
