import Verif.Proof.RustBdsK
import Verif.Proof.BdsKLarge
/-!
# Proofs about the Rust crate's fast functions with `k = 28` (C93)
-/

namespace Qrl.Rs.RK

open Res

variable (S : Sha256) (hf : HashFn) {κ : Nat}

/-- A checked build does what a wrapping one does, or panics. -/
def Checked {α : Type} (x y : Res α) : Prop := x = panic ∨ x = y

theorem Checked.rfl' {α : Type} (x : Res α) : Checked x x := Or.inr rfl

theorem Checked.bind {α β : Type} {x y : Res α} {f g : α → Res β} (h : Checked x y) (hfg : ∀ a, Checked (f a) (g a)) :
    Checked (x >>= f) (y >>= g) := by
  rcases h with rfl | rfl
  · exact Or.inl rfl
  · cases x with
    | ok a => exact hfg a
    | err e => exact Or.inr rfl
    | panic => exact Or.inl rfl

theorem Checked.ite {α : Type} {c : Prop} [Decidable c] {x y x' y' : Res α} (h : Checked x y) (h' : Checked x' y') :
    Checked (if c then x else x') (if c then y else y') := by
  by_cases hc : c
  · rw [if_pos hc, if_pos hc]; exact h
  · rw [if_neg hc, if_neg hc]; exact h'

theorem u32_checked (x : Nat) : Checked (u32 .debug x) (u32 .release x) := by
  unfold u32
  exact Checked.ite (Checked.rfl' _) (Or.inl rfl)

theorem setupSave_checked (p : XmssParams) (i nodeh : Nat) (c : Cell) (st : BdsState) :
    Checked (setupSave κ .debug p i nodeh c st) (setupSave κ .release p i nodeh c st) := by
  unfold setupSave
  refine Checked.ite (Checked.rfl' _) (Checked.ite (Checked.rfl' _) (Checked.ite (Checked.ite ?_ (Checked.rfl' _)) (Checked.rfl' _)))
  exact Checked.bind (u32_checked _) (fun _ => Checked.rfl' _)

theorem setupMerge_checked (p : XmssParams) (ps : Bytes) (idx i : Nat) :
    ∀ (so : Nat) (nodes : List Cell) (levels : List (Option Nat)) (st : BdsState) (a : Adrs),
    Checked (setupMerge κ .debug S hf p ps idx i so nodes levels st a) (setupMerge κ .release S hf p ps idx i so nodes levels st a)
  | 0, _, _, _, _ => Checked.rfl' _
  | 1, _, _, _, _ => Checked.rfl' _
  | so + 2, nodes, levels, st, a => by
    rw [setupMerge.eq_def, setupMerge.eq_def]
    dsimp only
    refine Checked.bind (Checked.rfl' _) (fun _ => Checked.bind (Checked.rfl' _) (fun _ => Checked.ite ?_ (Checked.rfl' _)))
    refine Checked.bind (Checked.rfl' _) (fun _ => Checked.bind (setupSave_checked ..) (fun _ => ?_))
    refine Checked.bind (Checked.rfl' _) (fun _ => Checked.bind (Checked.rfl' _) (fun _ => Checked.bind (Checked.rfl' _) (fun _ => ?_)))
    exact Checked.bind (Checked.rfl' _) (fun _ => Checked.bind (Checked.rfl' _) (fun _ => setupMerge_checked p ps idx i (so + 1) _ _ _ _))

/-- One merge of leaf `i`. -/
theorem setupMerge_odd (b : Build) (p : XmssParams) (ps : Bytes) (hp : 32 ≤ ps.length) (N : Nat → Nat → Bytes) {i q l : Nat} (h2 : q % 2 = 1)
    (X : Bytes) (nodes : List Cell) (levels : List (Option Nat)) (st : BdsState) (a : Adrs) (hH : Holds nodes levels ((l, X) :: segE N l 0 q)) :
    ∃ nodes' levels' a' X', Holds nodes' levels' ((l + 1, X') :: segE N (l + 1) 0 (q / 2)) ∧
    setupMerge κ b S hf p ps i i ((segE N l 0 q).length + 1) nodes levels st a =
      (setupSave κ b p i l (some X) st >>= fun st' =>
        setupMerge κ b S hf p ps i i ((segE N (l + 1) 0 (q / 2)).length + 1) nodes' levels' st' a') := by
  rw [segE_odd _ _ _ _ h2] at hH ⊢
  simp only [Nat.zero_add, Nat.zero_div] at hH ⊢
  obtain ⟨hn1, hl1, hn2, hl2, hrest⟩ := hH
  simp only [List.length_cons] at hl1 hn1
  have g1 : Qrl.rdUse levels ((segE N (l + 1) 0 (q / 2)).length + 1) = .ok l := rdUse_eq_ok hl1
  have g2 : Qrl.rdUse levels (segE N (l + 1) 0 (q / 2)).length = .ok l := rdUse_eq_ok hl2
  have hlt := (List.getElem?_eq_some_iff.mp hn2).1
  have hlt2 := (List.getElem?_eq_some_iff.mp hl2).1
  obtain ⟨y, ey⟩ : ∃ y, hashH S hf (N l (q - 1) ++ X) ps (setTreeIndex (setTreeHeight a l) (i >>> (l + 1))) = ok y :=
    ⟨_, hashH_rs S hf _ ps _ hp⟩
  refine ⟨_, _, y.2, y.1, hrest.push hlt hlt2 y.1 (l + 1), ?_⟩
  rw [List.length_cons, setupMerge.eq_def]
  dsimp only
  rw [sim_rdLevel _ _ _ g1, sim_rdLevel _ _ _ g2, ok_bind, ok_bind, if_pos rfl, sim_rd _ _ _ (rd_eq_ok hn1), ok_bind]
  refine congrArg _ (funext fun st' => ?_)
  rw [sim_rdNode _ _ _ (rdUse_eq_ok hn2), ok_bind, sim_rdNode _ _ _ (rdUse_eq_ok hn1), ok_bind, ey, ok_bind,
      sim_wr _ _ _ _ (wr_eq_ok _ hlt), ok_bind, sim_wr _ _ _ _ (wr_eq_ok _ hlt2), ok_bind]

/-- Leaf 239: the merge to level 3 saves a node whose offset is 2^32. -/
theorem setupMerge_239 {p : XmssParams} (hh : p.h = 30) (ps : Bytes) (hp : 32 ≤ ps.length) (N : Nat → Nat → Bytes) (X : Bytes)
    (nodes : List Cell) (levels : List (Option Nat)) (st : BdsState) (a : Adrs) (hH : Holds nodes levels ((0, X) :: segE N 0 0 239)) :
    setupMerge 28 .debug S hf p ps 239 239 ((segE N 0 0 239).length + 1) nodes levels st a = panic := by
  have low : ∀ (l : Nat) (c : Cell) (st : BdsState), l = 0 ∨ l = 1 → setupSave 28 .debug p 239 l c st = ok st := by
    intro l c st hl
    rw [setupSave, hh]
    rcases hl with rfl | rfl
    · rw [if_neg (by decide), if_neg (by decide), if_neg (by decide)]
    · rw [if_neg (by decide), if_neg (by decide), if_neg (by decide)]
  have high : ∀ (c : Cell) (st : BdsState), setupSave 28 .debug p 239 2 c st = panic := by
    intro c st
    rw [setupSave, hh, if_neg (by decide), if_neg (by decide), if_pos (by decide), if_pos (by decide)]
    rfl
  obtain ⟨n1, l1, a1, X1, H1, e1⟩ := setupMerge_odd (κ := 28) S hf .debug p ps hp N (i := 239) (show 239 % 2 = 1 from rfl) X nodes levels st a hH
  obtain ⟨n2, l2, a2, X2, H2, e2⟩ := setupMerge_odd (κ := 28) S hf .debug p ps hp N (i := 239) (show 239 / 2 % 2 = 1 from rfl) X1 n1 l1 st a1 H1
  obtain ⟨n3, l3, a3, X3, H3, e3⟩ := setupMerge_odd (κ := 28) S hf .debug p ps hp N (i := 239) (show 239 / 2 / 2 % 2 = 1 from rfl) X2 n2 l2 st a2 H2
  rw [e1, low _ _ _ (Or.inl rfl), ok_bind, e2, low _ _ _ (Or.inr rfl), ok_bind, e3, high]
  rfl

/-- The leaves before number 239 are handled as in a wrapping build, or there is a panic; number 239 panics. -/
theorem setupLoop_239 {p : XmssParams} (hh : p.h = 30) (sk ps : Bytes) (h1 : 1 ≤ p.wots.len)
    (hs : 32 ≤ sk.length) (hp : 32 ≤ ps.length) (st0 : BdsState) (n : Nat) :
    ∀ (m i : Nat) (th : THStack) (st : BdsState) (o4 o5 o6 o7 t4 t5 t6 t7 b1 c d : Nat),
      i + n = 239 → th.nodes.length = p.h + 1 → th.levels.length = p.h + 1 →
      Holds th.nodes th.levels (segE (Spec.node (hf.prim S) p.wots.w p.wots.len (sk.take 32) (ps.take 32)) 0 0 i) →
      th.offset = (segE (Spec.node (hf.prim S) p.wots.w p.wots.len (sk.take 32) (ps.take 32)) 0 0 i).length →
      BK.SetupInv 28 (Spec.node (hf.prim S) p.wots.w p.wots.len (sk.take 32) (ps.take 32)) p.h i 0 st0 st →
      setupLoop 28 .debug S hf sk p ps (m + n + 1) i i th st ⟨0, 0, 0, 0, o4, o5, o6, o7⟩ ⟨0, 0, 0, 1, t4, t5, t6, t7⟩
        ⟨0, 0, 0, 2, 0, b1, c, d⟩ = panic := by
  have hp30 : 2 ^ p.h = 1073741824 := by rw [hh]; decide
  induction n with
  | zero =>
    intro m i th st o4 o5 o6 o7 t4 t5 t6 t7 b1 c d hm hn hl hH ho I
    obtain rfl : i = 239 := by omega
    obtain ⟨t5', t6', t7', o5', o6', o7', hleaf⟩ := genLeafWots_eq S hf (sk.take 32) p (ps.take 32) h1 239 t5 t6 t7 o5 o6 o7
    have hlen := length_segE (Spec.node (hf.prim S) p.wots.w p.wots.len (sk.take 32) (ps.take 32)) p.h 0 0 239 (by omega)
    generalize hN : Spec.node (hf.prim S) p.wots.w p.wots.len (sk.take 32) (ps.take 32) = N at *
    rw [setupLoop.eq_def]
    dsimp only
    have e := genLeafWots_sim S hf sk p ps _ _ hs hp _ hleaf
    have e' : genLeafWots S hf sk p ps (setLtree ⟨0, 0, 0, 1, t4, t5, t6, t7⟩ 239) (setOTS ⟨0, 0, 0, 0, o4, o5, o6, o7⟩ 239) = ok _ := e
    rw [e', ok_bind, ho]
    dsimp only
    rw [sim_wr _ _ _ _ (wr_eq_ok _ (by omega)), ok_bind, sim_wr _ _ _ _ (wr_eq_ok _ (by omega)), ok_bind, if_neg (by omega)]
    rw [ok_bind, setupMerge_239 S hf hh ps hp N _ _ _ _ _ (hH.push (by omega) (by omega) _ 0)]
    rfl
  | succ n ih =>
    intro m i th st o4 o5 o6 o7 t4 t5 t6 t7 b1 c d hm hn hl hH ho I
    obtain ⟨t5', t6', t7', o5', o6', o7', hleaf⟩ := genLeafWots_eq S hf (sk.take 32) p (ps.take 32) h1 i t5 t6 t7 o5 o6 o7
    have hlen := length_segE (Spec.node (hf.prim S) p.wots.w p.wots.len (sk.take 32) (ps.take 32)) p.h 0 0 i (by omega)
    have hmerge := fun nodes levels st1 hpush I1 => BK.setupMerge_eq S hf p (sk.take 32) (ps.take 32) (κ := 28) (by omega) (by omega) (by omega) i
      (by omega) st0 i 0 nodes levels st1 b1 c d (by simp) hpush I1
    have hleafN : Spec.leaf (hf.prim S) p.wots.w p.wots.len (sk.take 32) (ps.take 32) i =
      Spec.node (hf.prim S) p.wots.w p.wots.len (sk.take 32) (ps.take 32) 0 i := rfl
    rw [hleafN] at hleaf
    generalize hN : Spec.node (hf.prim S) p.wots.w p.wots.len (sk.take 32) (ps.take 32) = N at *
    rw [show m + (n + 1) + 1 = (m + n + 1) + 1 by omega, setupLoop.eq_def]
    dsimp only
    have e' : genLeafWots S hf sk p ps (setLtree ⟨0, 0, 0, 1, t4, t5, t6, t7⟩ i) (setOTS ⟨0, 0, 0, 0, o4, o5, o6, o7⟩ i) = ok _ :=
      genLeafWots_sim S hf sk p ps _ _ hs hp _ hleaf
    rw [e', ok_bind, ho]
    dsimp only
    rw [sim_wr _ _ _ _ (wr_eq_ok _ (by omega)), ok_bind, sim_wr _ _ _ _ (wr_eq_ok _ (by omega)), ok_bind]
    have hpush := hH.push (by omega) (by omega) (N 0 i) 0
    generalize hnodes : th.nodes.set (segE N 0 0 i).length (some (N 0 i)) = nodes at *
    generalize hlevels : th.levels.set (segE N 0 0 i).length (some 0) = levels at *
    have hnl : nodes.length = p.h + 1 := by rw [← hnodes]; simpa using hn
    have hll : levels.length = p.h + 1 := by rw [← hlevels]; simpa using hl
    have rest : ∀ st' : BdsState, BK.SetupInv 28 N p.h i 0 st0 st' →
        (do
          let y ← setupMerge 28 .debug S hf p ps i i ((segE N 0 0 i).length + 1) nodes levels st' ⟨0, 0, 0, 2, 0, b1, c, d⟩
          setupLoop 28 .debug S hf sk p ps (m + n + 1) (i + 1) (i + 1) y.1 y.2.1 ⟨0, 0, 0, 0, i, o5', o6', o7'⟩
            ⟨0, 0, 0, 1, i, t5', t6', t7'⟩ y.2.2) = (Res.panic : Res (THStack × BdsState)) := by
      intro st' I'
      obtain ⟨th2, st2, b', c', d', e1, e2, e3, e4, e5, e6⟩ := hmerge nodes levels st' hpush I'
      have hrel := setupMerge_sim (κ := 28) S hf .release (Or.inl rfl) p ps hp (by omega) N i (by omega) i 0 _ nodes levels st' _ (by simp) hpush
        _ e1
      rcases setupMerge_checked (κ := 28) S hf p ps i i ((segE N 0 0 i).length + 1) nodes levels st' ⟨0, 0, 0, 2, 0, b1, c, d⟩ with hc | hc
      · rw [hc]; rfl
      · rw [hc, hrel, ok_bind]
        exact ih m (i + 1) th2 st2 i o5' o6' o7' i t5' t6' t7' b' c' d' (by omega) (by rw [e4]; exact hnl) (by rw [e5]; exact hll) e2 e3 e6
    by_cases hc : p.h - 28 > 0 ∧ i = 3
    · rw [if_pos hc]
      obtain ⟨hc1, hc2⟩ := hc
      have hl3 : (segE N 0 0 i).length ≤ 2 := length_segE N 2 0 0 i (by omega)
      obtain ⟨cell, hcell⟩ : ∃ cell, nodes[(segE N 0 0 i).length + 1]? = some cell :=
        ⟨_, List.getElem?_eq_getElem (by omega)⟩
      obtain ⟨tr, g1, g2, g3, g4, g5⟩ := I.th 0 (by omega)
      rw [sim_rd _ _ _ (rd_eq_ok hcell), ok_bind, setThNode_sim _ _ _ _ (setThNode_eq g1 _), ok_bind]
      refine rest _ ⟨I.stack, I.levels, I.offset, I.keep, I.lauth, by simpa using I.lth, I.lretain, I.auth, ?_, I.retain⟩
      intro k hk
      simp only
      by_cases hk0 : 0 = k
      · subst hk0
        refine ⟨{ tr with node := cell }, ?_, g2, g3, g4, ?_⟩
        · rw [List.getElem?_set, if_pos rfl, if_pos (by rw [I.lth]; omega)]
        · intro hc; omega
      · obtain ⟨tr', k1, k2⟩ := I.th k hk
        exact ⟨tr', by rw [List.getElem?_set, if_neg hk0]; exact k1, k2⟩
    · rw [if_neg hc, ok_bind]
      exact rest st I

theorem treehashSetup_239 (hκ : κ = 28) {p : XmssParams} (hh : p.h = 30) (sk ps : Bytes) (h1 : 1 ≤ p.wots.len) (hs : 32 ≤ sk.length)
    (hp : 32 ≤ ps.length) : treehashSetup κ .debug S hf p.h (bdsInit κ p.h) sk p ps {} = panic := by
  have hp30 : 240 ≤ 2 ^ p.h := by rw [hh]; decide
  have hloop := setupLoop_239 S hf hh sk ps h1 hs hp
  rw [← hκ] at hloop
  unfold treehashSetup
  dsimp only
  rw [shl1_lt .debug (by omega), ok_bind]
  obtain ⟨ths, e1, e2, e3⟩ := setupInit_eq (p.h - κ) (p.h - κ) 0 (BK.bdsInit κ p.h).treehash (by omega)
    (by simp [BK.bdsInit]) (fun k hk => by omega)
  have e1' : setupInit (p.h - κ) 0 (bdsInit κ p.h).treehash = ok ths := setupInit_sim _ _ _ _ e1
  rw [e1', ok_bind]
  have := hloop (BK.bdsInit κ p.h) 239 (2 ^ p.h - 240) 0
    ⟨List.replicate (p.h + 1) none, List.replicate (p.h + 1) none, 0⟩ { BK.bdsInit κ p.h with treehash := ths }
    0 0 0 0 0 0 0 0 0 0 0 (by omega) (by simp) (by simp) (by rw [segE_zero]; trivial) (by rw [segE_zero]; rfl)
    ⟨rfl, rfl, rfl, rfl, by simp [BK.bdsInit], e2, by simp [BK.bdsInit, Nat.one_shiftLeft], fun k _ hc => by
      have := Nat.two_pow_pos (k + 1); omega, fun k hk => by
      obtain ⟨tr, g1, g2, g3, g4⟩ := e3 k hk
      refine ⟨tr, g1, g2, g3, g4, fun hc => ?_⟩
      have := Nat.two_pow_pos (k + 2); omega, fun d y _ _ _ hc => by
      have := Nat.mul_pos (Nat.two_pow_pos (p.h - d)) (show 0 < 2 * y + 4 by omega); omega⟩
  rw [show 2 ^ p.h - 240 + 239 + 1 = 2 ^ p.h by omega] at this
  have this' : setupLoop κ .debug S hf sk p ps (2 ^ p.h) 0 0 ⟨List.replicate (p.h + 1) none, List.replicate (p.h + 1) none, 0⟩
    { bdsInit κ p.h with treehash := ths } (derive {} 0) (derive {} 1) (setType {} 2) = panic := this
  rw [this']
  rfl

theorem fastGenKeypairRaw_239 (hf : HashFn) {w : Nat} (hw : Spec.RangeW w) (pk sk seed : Bytes) :
    xmssFastGenKeypairRaw 28 .debug S hf ⟨wotsParams w, 30⟩ pk sk (bdsInit 28 30) seed = panic := by
  rw [xmssFastGenKeypairRaw, if_neg (by dsimp only; decide)]
  by_cases c1 : sk.length < 4
  · rw [putInto_short (by simpa using c1)]; rfl
  rw [putInto_ok (by simp; omega), ok_bind, shake_seed]
  by_cases c2 : seed.length < 48
  · rw [if_pos c2]; rfl
  rw [if_neg c2, ok_bind]
  generalize hrb : Qrl.shake256 96 (seed.take 48) = rb
  have hl : rb.length = 96 := by rw [← hrb]; simp
  by_cases c3 : sk.length < 100
  · rw [putInto_short (by simp; omega)]; rfl
  rw [putInto_ok (by simp; omega), ok_bind]
  generalize hs : List.take 4 _ ++ rb ++ _ = sk1
  have hlen : sk1.length = sk.length := by rw [← hs]; simp; omega
  rw [slice, if_pos (by omega), ok_bind]
  by_cases c4 : pk.length < 64
  · rw [putInto_short (by simp; omega)]; rfl
  rw [putInto_ok (by simp; omega), ok_bind]
  have := treehashSetup_239 S hf rfl (p := ⟨wotsParams w, 30⟩) rfl (sk1.drop 4) (sk1.drop 68) (rustLen_pos hw) (by simp; omega) (by simp; omega)
  rw [this]
  rfl

/-- Going forward from any state as the C code does. -/
theorem advanceLoop_sim (b : Build) (hκ : 2 ≤ κ) (hb26 : b = .release ∨ κ ≤ 26) (sk : Bytes) (p : XmssParams) (ps : Bytes) (hs : sk.length = 32)
    (hps : ps.length = 32) (hκh : κ < p.h) (hh : p.h ≤ 30) : ∀ (m j : Nat) (st : BdsState), j + m ≤ 2 ^ p.h →
    Sim (BK.advanceLoop κ S hf sk p ps m j st) (advanceLoop κ b S hf sk p ps m j st)
  | 0, _, _, _ => Sim.rfl' _
  | m + 1, j, st, hj => by
    rw [BK.advanceLoop, advanceLoop]
    have s1 := bdsRound_sim S hf b hκ hb26 st j sk p ps {} (by omega) (by omega) hκh hh (by omega)
    rw [take32_of hs, take32_of hps] at s1
    refine Sim.bind s1 (fun st1 => ?_)
    have s2 := bdsTreehashUpdate_sim (κ := κ) S hf sk p ps {} (by omega) (by omega) ((p.h - κ) >>> 1) st1
    rw [take32_of hs, take32_of hps] at s2
    exact Sim.bind s2 (fun st2 => advanceLoop_sim b hκ hb26 sk p ps hs hps hκh hh m (j + 1) st2 (by omega))

/-- `xmss_fast_sign_msg` on a key slice and a state that holds the path `P`, right or wrong. -/
theorem fastSignMsgRaw_path (b : Build) (hf : HashFn) {w h : Nat} (hw : Spec.RangeW w) (hh30 : h ≤ 30) (K : KeyParts) {st st' : BdsState}
    (P : Nat → Bytes) (hP : ∀ i, i < h → (P i).length = 32) (hauth : ∀ i, i < h → st.auth[i]? = some (some (P i)))
    (i : Nat) (hi : i < 2 ^ h - 1)
    (hstep : ∀ b' c' d' : Nat, (bdsRound κ b S hf st i K.skSeed ⟨wotsParams w, h⟩ K.ps ⟨0, 0, 0, 0, i, b', c', d'⟩ >>= fun st =>
      bdsTreehashUpdate κ S hf K.skSeed ⟨wotsParams w, h⟩ K.ps ⟨0, 0, 0, 0, i, b', c', d'⟩ ((h - κ) >>> 1) st) = ok st')
    (t sig msg : Bytes) (msglen : Nat) {ds : List Nat} (hms : msglen ≤ msg.length) (hd : sigHead b S hf w K i (msg.take msglen) = some ds)
    (hsig : Spec.rustSize w h ≤ sig.length) :
    xmssFastSignMsgRaw κ b S hf ⟨wotsParams w, h⟩ (K.sk i ++ t) st sig msg msglen =
      ok (0, K.sk (i + 1) ++ t, Spec.be 4 i ++ Spec.PRF (hf.prim S) K.skPrf (Spec.be 32 i) ++
        (Spec.wotsSig (hf.prim S) K.skSeed K.ps i ds).flatten ++ ((List.range h).map P).flatten ++ sig.drop (Spec.rustSize w h), st') := by
  have hpos := Nat.two_pow_pos h
  have hpw : 2 ^ h ≤ 2 ^ 30 := Nat.pow_le_pow_right (by omega) hh30
  have h32 : i < 2 ^ 32 := by omega
  have hnext : u32 b (i + 1) = ok (i + 1) := u32_lt b (by omega)
  obtain ⟨b', c', d', e⟩ := signHead_raw (S := S) b hf hw K i h32 hnext t sig msg msglen (fun sk sig otsAddr => do
      let path ← authOut st.auth h 0
      let sig ← putInto sig (36 + (wotsParams w).keysize) path.flatten
      let num ← shl1 b h
      let st ← if i < num - 1 then do
          let st ← bdsRound κ b S hf st i K.skSeed ⟨wotsParams w, h⟩ K.ps otsAddr
          bdsTreehashUpdate κ S hf K.skSeed ⟨wotsParams w, h⟩ K.ps otsAddr ((h - κ) >>> 1) st
        else ok st
      ok (0, sk, sig, st))
  rw [xmssFastSignMsgRaw]
  simp only [key_be32 K h32, key_seed, key_prf, key_ps, ok_bind] at e ⊢
  rw [e, if_neg (by omega), hd]
  have hl := sigHead_length hw hd
  dsimp only
  have hpath := authOut_sim _ _ _ _ (BK.authOut_path P h _ hauth h 0 (by omega))
  rw [← List.range_eq_range'] at hpath
  have hround : ∀ s : Bytes, (if i < 2 ^ h - 1 then do
        let st ← bdsRound κ b S hf st i K.skSeed ⟨wotsParams w, h⟩ K.ps ⟨0, 0, 0, 0, i, b', c', d'⟩
        let st ← bdsTreehashUpdate κ S hf K.skSeed ⟨wotsParams w, h⟩ K.ps ⟨0, 0, 0, 0, i, b', c', d'⟩ ((h - κ) >>> 1) st
        ok ((0 : Nat), K.sk (i + 1) ++ t, s, st)
      else ok ((0 : Nat), K.sk (i + 1) ++ t, s, st)) = ok ((0 : Nat), K.sk (i + 1) ++ t, s, st') := by
    intro s
    rw [if_pos hi, ← Res.bind_assoc, hstep, ok_bind]
  have hfl : ((List.range h).map P).flatten.length = 32 * h := by
    rw [length_flatten32 _ (by
      intro y hy
      obtain ⟨l, hl, rfl⟩ := List.mem_map.mp hy
      exact hP l (List.mem_range.mp hl))]
    simp
  have := putSeq sig (idxBytes i) (Spec.PRF (hf.prim S) K.skPrf (Spec.be 32 i))
    (Spec.wotsSig (hf.prim S) K.skSeed K.ps i ds).flatten
    ((List.range h).map P).flatten (32 * Spec.rustLen w) (32 * h) rfl
    (length_PRF ..) (length_wots hf K i hl) hfl
    (fun s => ok ((0 : Nat), K.sk (i + 1) ++ t, s, st'))
  simp only [hpath, ok_bind, show (wotsParams w).keysize = 32 * Spec.rustLen w from Nat.mul_comm _ _,
    shl1_lt b (show h < 32 by omega), hround]
  rw [this, show idxBytes i = Spec.be 4 i from idxBytes_eq i]
  rw [Spec.rustSize] at hsig ⊢
  rw [if_neg (by omega)]

end Qrl.Rs.RK
