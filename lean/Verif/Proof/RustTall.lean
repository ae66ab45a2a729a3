import Verif.Proof.RustBasicAny
import Verif.Proof.RustFastAny
import Verif.Proof.BasicTree
/-!
# The Rust port at heights of 32 and more, without overflow checks

`1 << h` is `2 ^ (h % 32)` there: only that many leaves are added to the tree.
-/

namespace Qrl.Rs

open Res

variable {S : Sha256}

theorem shl1_tall {h : Nat} (h32 : 32 ≤ h) : shl1 .release h = ok (2 ^ (h % 32)) := by
  rw [shl1.eq_def, if_neg (by omega)]

/-- The root computed by `treehash`. -/
theorem treehash_tall (hf : HashFn) (p : XmssParams) (sk ps : Bytes) (h1 : 1 ≤ p.wots.len) (hs : 32 ≤ sk.length)
    (hps : 32 ≤ ps.length) (h : Nat) (h32 : 32 ≤ h) (a b c d e : Nat) :
    treehash .release S hf h sk p ps ⟨0, 0, 0, a, b, c, d, e⟩ =
      ok (Spec.node (hf.prim S) p.wots.w p.wots.len (sk.take 32) (ps.take 32) (h % 32) 0) := by
  have hpw : 2 ^ (h % 32) ≤ 2 ^ h := Nat.pow_le_pow_right (by omega) (by omega)
  obtain ⟨st', e1, e2⟩ := treehashLoop_eq S hf p (sk.take 32) (ps.take 32) h1 h (2 ^ (h % 32)) 0
    ⟨List.replicate (h + 1) none, List.replicate (h + 1) none, 0⟩ 0 0 0 0 0 0 0 0 0 0 0 (by omega)
    (by simp) (by simp) (by rw [segE_zero]; trivial) (by rw [segE_zero]; rfl)
  unfold treehash
  dsimp only
  rw [shl1_tall h32, ok_bind]
  rw [show derive ⟨0, 0, 0, a, b, c, d, e⟩ 0 = ⟨0, 0, 0, 0, 0, 0, 0, 0⟩ from rfl,
    show derive ⟨0, 0, 0, a, b, c, d, e⟩ 1 = ⟨0, 0, 0, 1, 0, 0, 0, 0⟩ from rfl,
    show derive ⟨0, 0, 0, a, b, c, d, e⟩ 2 = ⟨0, 0, 0, 2, 0, 0, 0, 0⟩ from rfl,
    treehashLoop_sim S hf sk p ps hs hps _ _ _ _ _ _ _ e1, ok_bind]
  rw [Nat.zero_add, segE_pow, Nat.zero_add] at e2
  exact sim_rdNode _ _ _ (rdUse_eq_ok e2.1)

theorem seed_take {r x : Bytes} (h : r.length = 96) : (r ++ x).take 32 = r.take 32 := by
  rw [List.take_append_of_le_length (by omega)]

theorem seed_drop {r x : Bytes} (h : r.length = 96) : ((r ++ x).drop 64).take 32 = r.drop 64 := by
  rw [List.drop_append_of_le_length (by omega), List.take_append_of_le_length (by rw [List.length_drop]; omega),
    List.take_of_length_le (by rw [List.length_drop]; omega)]

/-- `XMSSBasic::new` with a tall height. -/
theorem basic_new_tall (seed : Bytes) (height : UInt8) (hf : HashFn) {w : Nat} (hw : Spec.RangeW w) (hs : seed.length = 48)
    (h32 : 32 ≤ height.toNat) (he : height.toNat % 2 = 0) :
    XMSSBasic.new .release S seed height hf w =
      ok { hashFunction := hf, height := height, seed := seed, params := ⟨wotsParams w, height.toNat⟩
           sk := (keyP S hf w (Spec.rustLen w) (height.toNat % 32) (rustLen_pos hw) seed).sk 0 } := by
  have hu := height.toNat_lt
  have hc : ¬ (2 ≥ height.toNat ∨ (height.toNat - 2) % 2 ≠ 0) := by omega
  have hr := fipsShake256_short 96 seed (by omega)
  rw [hs] at hr
  have hl : (Qrl.shake256 96 seed).length = 96 := length_shake256 96 seed
  have hgen : xmssGenKeypair .release S hf ⟨wotsParams w, height.toNat⟩ seed =
      ok ((keyP S hf w (Spec.rustLen w) (height.toNat % 32) (rustLen_pos hw) seed).sk 0) := by
    rw [xmssGenKeypair, hr, ok_bind]
    dsimp only
    rw [treehash_tall hf ⟨wotsParams w, height.toNat⟩ _ _ (rustLen_pos hw) (by rw [List.length_append]; omega)
      (by rw [List.length_drop, List.length_append, List.length_replicate]; omega) height.toNat h32, ok_bind,
      seed_take hl, seed_drop hl, ← keyP_sk0 S hf w (Spec.rustLen w) (height.toNat % 32) (rustLen_pos hw)]
    rfl
  rw [XMSSBasic.new, if_neg (by omega), if_neg hc, xmssParams, if_neg hc, ok_bind, hgen, ok_bind, XMSSBase.new,
    if_neg (by omega), if_neg (by omega), ok_bind]

/-! ## `treehash_setup` -/

/-- Every node held is 32 bytes long. -/
def Cells32 (l : List Cell) : Prop := ∀ x, some x ∈ l → x.length = 32

theorem Cells32.set {l : List Cell} (h : Cells32 l) (i : Nat) {c : Cell} (hc : ∀ x, c = some x → x.length = 32) : Cells32 (l.set i c) := by
  intro x hx
  rcases List.mem_or_eq_of_mem_set hx with hx | hx
  · exact h x hx
  · exact hc x hx.symm

theorem cells32_none (n : Nat) : Cells32 (List.replicate n none) := by
  intro x hx
  have := List.eq_of_mem_replicate hx
  cases this

theorem Cells32.get {l : List Cell} (h : Cells32 l) {i : Nat} (hi : i < l.length) : ∀ x, l[i] = some x → x.length = 32 := by
  intro x hx
  exact h x (hx ▸ List.getElem_mem hi)

/-- The state has the buffers of a tree of height `h`, and no instance is running. -/
structure Shape (h : Nat) (st : BdsState) : Prop where
  auth : st.auth.length = h
  size : Cells32 st.auth
  keep : st.keep.length = h >>> 1
  len : st.treehash.length = h - 2
  done : ∀ t ∈ st.treehash, t.completed = true

theorem wr_lt {α : Type} {l : List α} {i : Nat} (x : α) (h : i < l.length) : wr l i x = ok (l.set i x) := by
  rw [wr, if_pos h]

theorem rd_lt {α : Type} {l : List α} {i : Nat} (h : i < l.length) : rd l i = ok l[i] := by
  rw [rd, List.getElem?_eq_getElem h]

theorem setThNode_shape {h : Nat} {st : BdsState} (H : Shape h st) {i : Nat} (hi : i < h - 2) (c : Cell) :
    ∃ st', setThNode st i c = ok st' ∧ Shape h st' := by
  have hl : i < st.treehash.length := by rw [H.len]; exact hi
  refine ⟨{ st with treehash := st.treehash.set i { st.treehash[i] with node := c } }, ?_, H.auth, H.size, H.keep, ?_, ?_⟩
  · rw [setThNode, rd_lt hl, ok_bind, wr_lt _ hl, ok_bind]
  · show (st.treehash.set _ _).length = _
    rw [List.length_set, H.len]
  · intro t ht
    rcases List.mem_or_eq_of_mem_set ht with ht | rfl
    · exact H.done _ ht
    · exact H.done st.treehash[i] (List.getElem_mem hl)

theorem setupSave_shape {p : XmssParams} {st : BdsState} (H : Shape p.h st) (i : Nat) {a : Nat} (ha : a < p.h - 2) (c : Cell)
    (hc : ∀ x, c = some x → x.length = 32) : ∃ st', setupSave p i a c st = ok st' ∧ Shape p.h st' := by
  rw [setupSave]
  by_cases h1 : i >>> a = 1
  · rw [if_pos h1, wr_lt _ (by rw [H.auth]; omega), ok_bind]
    exact ⟨_, rfl, by rw [List.length_set]; exact H.auth, H.size.set _ hc, H.keep, H.len, H.done⟩
  rw [if_neg h1]
  by_cases h2 : a < p.h - 2 ∧ i >>> a = 3
  · rw [if_pos h2]; exact setThNode_shape H h2.1 c
  · rw [if_neg h2, if_neg (by omega)]; exact ⟨_, rfl, H⟩

theorem merge_top (hf : HashFn) (ps : Bytes) (idx : Nat) : ∀ (so : Nat) (nodes : List Cell) (levels : List (Option Nat)) (a : Adrs)
    (th : THStack) (a' : Adrs) (t : Nat), treehashMerge S hf ps idx so nodes levels a = ok (th, a') → rdLevel levels (so - 1) = ok t →
    ∃ v, rdLevel th.levels (th.offset - 1) = ok v ∧ t ≤ v := by
  intro so
  induction so with
  | zero => intro nodes levels a th a' t h ht; cases h; exact ⟨t, ht, Nat.le_refl _⟩
  | succ so ih =>
    intro nodes levels a th a' t h ht
    cases so with
    | zero => cases h; exact ⟨t, ht, Nat.le_refl _⟩
    | succ so =>
      rw [treehashMerge.eq_def] at h
      dsimp only at h
      rw [show so + 1 + 1 - 1 = so + 1 from rfl] at ht
      rw [ht, ok_bind, bind_eq_ok] at h
      obtain ⟨y, hy, h⟩ := h
      by_cases hty : t = y
      · rw [if_pos hty] at h
        simp only [bind_eq_ok] at h
        obtain ⟨l, -, r, -, ⟨x, ad⟩, -, n', -, lv, hlv, h⟩ := h
        rw [wr] at hlv
        split at hlv
        case isFalse => cases hlv
        case isTrue hlt =>
          cases hlv
          obtain ⟨v, hv, hle⟩ := ih _ _ _ _ _ (y + 1) h (by
            rw [rdLevel, Nat.add_sub_cancel, List.getElem?_set_self hlt])
          exact ⟨v, hv, by omega⟩
      · rw [if_neg hty] at h
        cases h
        exact ⟨t, ht, Nat.le_refl _⟩

theorem setupMerge_tall (hf : HashFn) {p : XmssParams} (ps : Bytes) (hps : 32 ≤ ps.length) (idx i : Nat) {M : Nat} (hM : M ≤ p.h - 2) :
    ∀ (so : Nat) (nodes : List Cell) (levels : List (Option Nat)) (st : BdsState) (a : Adrs) (th : THStack) (a' : Adrs) (v : Nat),
    Shape p.h st → treehashMerge S hf ps idx so nodes levels a = ok (th, a') → rdLevel th.levels (th.offset - 1) = ok v → v ≤ M →
    (∀ k, k < so → k < nodes.length) → Cells32 nodes →
    ∃ st', setupMerge S hf p ps idx i so nodes levels st a = ok (th, st', a') ∧ Shape p.h st' ∧ Cells32 th.nodes := by
  intro so
  induction so with
  | zero => intro nodes levels st a th a' v H h _ _ _ h32; cases h; exact ⟨st, rfl, H, h32⟩
  | succ so ih =>
    intro nodes levels st a th a' v H h hv hle hn h32
    cases so with
    | zero => cases h; exact ⟨st, rfl, H, h32⟩
    | succ so =>
      rw [treehashMerge.eq_def] at h
      rw [setupMerge.eq_def]
      dsimp only at h ⊢
      rw [bind_eq_ok] at h
      obtain ⟨x, hx, h⟩ := h
      rw [bind_eq_ok] at h
      obtain ⟨y, hy, h⟩ := h
      rw [hx, ok_bind, hy, ok_bind]
      by_cases hxy : x = y
      · rw [if_pos hxy] at h ⊢
        subst hxy
        rw [bind_eq_ok] at h
        obtain ⟨l, hl, h⟩ := h
        rw [bind_eq_ok] at h
        obtain ⟨r, hr, h⟩ := h
        rw [bind_eq_ok] at h
        obtain ⟨⟨z, ad⟩, hz, h⟩ := h
        dsimp only at h
        rw [bind_eq_ok] at h
        obtain ⟨n', hn', h⟩ := h
        rw [bind_eq_ok] at h
        obtain ⟨lv, hlv, h⟩ := h
        have hlv' := hlv
        have hlen : n'.length = nodes.length := by
          rw [wr] at hn'; split at hn'
          · cases hn'; rw [List.length_set]
          · cases hn'
        have h32' : Cells32 n' := by
          rw [wr] at hn'; split at hn'
          · cases hn'
            refine h32.set _ fun x hx => ?_
            cases hx
            rw [hashH_rs S hf _ ps _ hps] at hz
            cases hz
            exact length_coreHash S hf ..
          · cases hn'
        rw [wr] at hlv'
        split at hlv'
        case isFalse => cases hlv'
        case isTrue hlt =>
          cases hlv'
          obtain ⟨v', hv', hle'⟩ := merge_top hf ps idx _ _ _ _ _ _ (x + 1) h (by
            rw [rdLevel, Nat.add_sub_cancel, List.getElem?_set_self hlt])
          rw [hv] at hv'
          cases hv'
          obtain ⟨st1, e1, H1⟩ := setupSave_shape H i (show x < p.h - 2 by omega) (nodes[so + 1]'(hn _ (by omega)))
            (h32.get _)
          obtain ⟨st2, e2, H2, h33⟩ := ih _ _ st1 _ _ _ _ H1 h hv hle (fun k hk => by rw [hlen]; exact hn k (by omega))
            h32'
          refine ⟨st2, ?_, H2, h33⟩
          rw [rd_lt (hn _ (by omega)), ok_bind, e1, ok_bind, hl, ok_bind, hr, ok_bind, hz]
          simp only [ok_bind]
          rw [hn', ok_bind, hlv, ok_bind, e2]
      · rw [if_neg hxy] at h ⊢
        cases h
        exact ⟨st, rfl, H, h32⟩

theorem setupLoop_tall (hf : HashFn) (p : XmssParams) (sk ps : Bytes) (hs : 32 ≤ sk.length) (hps : 32 ≤ ps.length)
    (h1 : 1 ≤ p.wots.len) {M : Nat} (hM : M ≤ p.h - 2) (hp2 : 3 ≤ p.h)
    (m : Nat) : ∀ (idx : Nat) (th : THStack) (st : BdsState) (o4 o5 o6 o7 t4 t5 t6 t7 b c d : Nat),
      idx + m ≤ 2 ^ M → th.nodes.length = p.h + 1 → th.levels.length = p.h + 1 → Shape p.h st → Cells32 th.nodes →
      Holds th.nodes th.levels (segE (Spec.node (hf.prim S) p.wots.w p.wots.len (sk.take 32) (ps.take 32)) 0 0 idx) →
      th.offset = (segE (Spec.node (hf.prim S) p.wots.w p.wots.len (sk.take 32) (ps.take 32)) 0 0 idx).length →
      ∃ th' st', setupLoop S hf sk p ps m idx idx th st ⟨0, 0, 0, 0, o4, o5, o6, o7⟩ ⟨0, 0, 0, 1, t4, t5, t6, t7⟩
          ⟨0, 0, 0, 2, 0, b, c, d⟩ = ok (th', st') ∧ Shape p.h st' ∧
        Holds th'.nodes th'.levels (segE (Spec.node (hf.prim S) p.wots.w p.wots.len (sk.take 32) (ps.take 32)) 0 0 (idx + m)) := by
  generalize hN : Spec.node (hf.prim S) p.wots.w p.wots.len (sk.take 32) (ps.take 32) = N
  induction m with
  | zero => intro idx th st o4 o5 o6 o7 t4 t5 t6 t7 b c d _ _ _ H _ hH _; exact ⟨th, st, rfl, H, hH⟩
  | succ m ih =>
    intro idx th st o4 o5 o6 o7 t4 t5 t6 t7 b c d hm hn hl H h32 hH ho
    obtain ⟨t5', t6', t7', o5', o6', o7', hleaf⟩ := genLeafWots_eq S hf (sk.take 32) p (ps.take 32) h1 idx t5 t6 t7 o5 o6 o7
    have hleaf := genLeafWots_sim S hf sk p ps _ _ hs hps _ hleaf
    have hlen := length_segE N M 0 0 idx (by omega)
    rw [setupLoop]
    dsimp only
    rw [show setLtree ⟨0, 0, 0, 1, t4, t5, t6, t7⟩ idx = ⟨0, 0, 0, 1, idx, t5, t6, t7⟩ from rfl,
      show setOTS ⟨0, 0, 0, 0, o4, o5, o6, o7⟩ idx = ⟨0, 0, 0, 0, idx, o5, o6, o7⟩ from rfl, hleaf]
    simp only [ok_bind]
    rw [ho, wr_lt _ (by omega), ok_bind, wr_lt _ (by omega), ok_bind]
    obtain ⟨th1, b', c', d', e1, e2, e3, e4, e5⟩ := treehashMerge_eq S hf p.wots.w p.wots.len (sk.take 32) (ps.take 32) idx idx 0 _ _ b c d
      (by simp) (by rw [hN]; exact hH.push (by omega) (by omega) (N 0 idx) 0)
    rw [hN] at e1 e2 e3
    have e1 := treehashMerge_sim S hf ps idx hps _ _ _ _ _ e1
    have hN0 : Spec.leaf (hf.prim S) p.wots.w p.wots.len (sk.take 32) (ps.take 32) idx = N 0 idx := by rw [← hN]; rfl
    rw [hN0]
    -- the level on top of the stack
    obtain ⟨v, hv, hvM⟩ : ∃ v, rdLevel th1.levels (th1.offset - 1) = ok v ∧ v ≤ M := by
      cases hseg : segE N 0 0 (idx + 1) with
      | nil => exact absurd hseg (segE_ne_nil N (idx + 1) 0 0 (by omega))
      | cons e es =>
        obtain ⟨v, x⟩ := e
        rw [hseg] at e2 e3
        obtain ⟨-, hv, -⟩ := e2
        refine ⟨v, ?_, ?_⟩
        · rw [e3, rdLevel, List.length_cons, Nat.add_sub_cancel, hv]
        · obtain ⟨-, hd, -⟩ := segE_head_dvd N (idx + 1) 0 0 v x es hseg
          rw [Nat.sub_zero] at hd
          have := Nat.le_of_dvd (by omega) hd
          exact (Nat.pow_le_pow_iff_right (show 1 < 2 by omega)).mp (by omega)
    have key : ∀ st0, Shape p.h st0 → ∃ th' st', (do
        let x ← setupMerge S hf p ps idx idx ((segE N 0 0 idx).length + 1) (th.nodes.set (segE N 0 0 idx).length (some (N 0 idx)))
          (th.levels.set (segE N 0 0 idx).length (some 0)) st0 ⟨0, 0, 0, 2, 0, b, c, d⟩
        setupLoop S hf sk p ps m (idx + 1) (idx + 1) x.1 x.2.1 ⟨0, 0, 0, 0, idx, o5', o6', o7'⟩ ⟨0, 0, 0, 1, idx, t5', t6', t7'⟩ x.2.2) =
          ok (th', st') ∧ Shape p.h st' ∧ Holds th'.nodes th'.levels (segE N 0 0 (idx + (m + 1))) := by
      intro st0 H0
      obtain ⟨st1, e6, H1, hc1⟩ := setupMerge_tall (S := S) hf ps hps idx idx hM _ _ _ st0 _ _ _ _ H0 e1 hv hvM
        (fun k hk => by rw [List.length_set]; omega) (h32.set _ (fun x hx => by
          cases hx; rw [← hN]; exact length_node S hf _ _ _ _ h1 _ _))
      rw [e6, ok_bind]
      obtain ⟨th', st', e7, H2, e8⟩ := ih (idx + 1) th1 st1 idx o5' o6' o7' idx t5' t6' t7' b' c' d' (by omega)
        (by rw [e4]; simpa using hn) (by rw [e5]; simpa using hl) H1 hc1 e2 e3
      exact ⟨th', st', e7, H2, by rw [show idx + (m + 1) = idx + 1 + m by omega]; exact e8⟩
    by_cases h3 : p.h - 2 > 0 ∧ idx = 3
    · rw [if_pos h3, rd_lt (by rw [List.length_set]; omega), ok_bind]
      obtain ⟨st0, es, H0⟩ := setThNode_shape H h3.1 ((th.nodes.set (segE N 0 0 idx).length (some (N 0 idx)))[(segE N 0 0 idx).length + 1]'(by
        rw [List.length_set]; omega))
      rw [es, ok_bind]
      exact key st0 H0
    · rw [if_neg h3]; exact key st H

theorem treehashSetup_tall (hf : HashFn) (p : XmssParams) (sk ps : Bytes) (hs : 32 ≤ sk.length) (hps : 32 ≤ ps.length)
    (h1 : 1 ≤ p.wots.len) (h32 : 32 ≤ p.h) : ∃ st, treehashSetup .release S hf p.h (bdsInit p.h) sk p ps {} =
      ok (Spec.node (hf.prim S) p.wots.w p.wots.len (sk.take 32) (ps.take 32) (p.h % 32) 0, st) ∧ Shape p.h st := by
  obtain ⟨ths, ei, hl, hi⟩ := setupInit_eq (p.h - 2) (p.h - 2) 0 (bdsInit p.h).treehash (by omega)
    (by simp [bdsInit]) (fun k hk => absurd hk (by omega))
  have ei := setupInit_sim _ _ _ _ ei
  have H : Shape p.h { bdsInit p.h with treehash := ths } := by
    refine ⟨by simp [bdsInit], cells32_none _, by simp [bdsInit], hl, fun t ht => ?_⟩
    obtain ⟨k, hk, rfl⟩ := List.getElem_of_mem ht
    obtain ⟨tr, e, hc, -⟩ := hi k (by rw [← hl]; exact hk)
    rw [List.getElem?_eq_getElem hk] at e
    cases e
    exact hc
  obtain ⟨th', st', e1, H', e2⟩ := setupLoop_tall (S := S) hf p sk ps hs hps h1 (M := p.h % 32) (by omega) (by omega) (2 ^ (p.h % 32)) 0
    ⟨List.replicate (p.h + 1) none, List.replicate (p.h + 1) none, 0⟩ { bdsInit p.h with treehash := ths } 0 0 0 0 0 0 0 0 0 0 0
    (by omega) (by simp) (by simp) H (cells32_none _) (by rw [segE_zero]; trivial) (by rw [segE_zero]; rfl)
  refine ⟨st', ?_, H'⟩
  unfold treehashSetup
  dsimp only
  rw [shl1_tall h32, ok_bind, ei, ok_bind,
    show derive ({} : Adrs) 0 = ⟨0, 0, 0, 0, 0, 0, 0, 0⟩ from rfl,
    show derive ({} : Adrs) 1 = ⟨0, 0, 0, 1, 0, 0, 0, 0⟩ from rfl,
    show setType ({} : Adrs) 2 = ⟨0, 0, 0, 2, 0, 0, 0, 0⟩ from rfl, e1]
  simp only [ok_bind]
  rw [Nat.zero_add, segE_pow, Nat.zero_add] at e2
  have hroot : rdNode th'.nodes 0 = _ := sim_rdNode _ _ _ (rdUse_eq_ok e2.1)
  rw [hroot, ok_bind]

/-- `initialize_tree` on an object with a tall height. -/
theorem initializeTree_tall (o : XMSSFast) {w : Nat} (hw : Spec.RangeW w) (hs : o.seed.length = 48)
    (h32 : 32 ≤ o.height.toNat) (he : o.height.toNat % 2 = 0) :
    ∃ st, Shape o.height.toNat st ∧ o.initializeTree .release S w =
      .ret () { o with params := ⟨wotsParams w, o.height.toNat⟩, state := st
                       sk := (keyP S o.hashFunction w (Spec.rustLen w) (o.height.toNat % 32) (rustLen_pos hw) o.seed).sk 0 } := by
  have hc : ¬ (2 ≥ o.height.toNat ∨ (o.height.toNat - 2) % 2 ≠ 0) := by omega
  have hr := fipsShake256_short 96 o.seed (by omega)
  rw [hs] at hr
  have hl : (Qrl.shake256 96 o.seed).length = 96 := length_shake256 96 o.seed
  obtain ⟨st, e, H⟩ := treehashSetup_tall (S := S) o.hashFunction ⟨wotsParams w, o.height.toNat⟩ (Qrl.shake256 96 o.seed ++ o.sk.drop 100)
    ((Qrl.shake256 96 o.seed ++ o.sk.drop 100).drop 64) (by rw [List.length_append]; omega)
    (by rw [List.length_drop, List.length_append, List.length_drop]; omega) (rustLen_pos hw) h32
  refine ⟨st, H, ?_⟩
  rw [seed_take hl, seed_drop hl] at e
  rw [XMSSFast.initializeTree, if_neg hc, xmssParams, if_neg hc]
  dsimp only
  rw [xmssFastGenKeypair, if_neg (by rw [Nat.and_one_is_mod]; simp only; omega), hr, ok_bind]
  dsimp only at e ⊢
  rw [e]
  simp only [ok_bind]
  rw [← keyP_sk0 S o.hashFunction w (Spec.rustLen w) (o.height.toNat % 32) (rustLen_pos hw) o.seed 0]
  rfl

/-- `XMSSFast::new` with a tall height. -/
theorem fast_new_tall (seed : Bytes) (height : UInt8) (hf : HashFn) {w : Nat} (hw : Spec.RangeW w) (hs : seed.length = 48)
    (h32 : 32 ≤ height.toNat) (he : height.toNat % 2 = 0) :
    ∃ st, Shape height.toNat st ∧ XMSSFast.new .release S seed height hf w =
      ok { hashFunction := hf, height := height, seed := seed, params := ⟨wotsParams w, height.toNat⟩, state := st
           sk := (keyP S hf w (Spec.rustLen w) (height.toNat % 32) (rustLen_pos hw) seed).sk 0 } := by
  obtain ⟨st, H, e⟩ := initializeTree_tall (S := S) (XMSSFast.blank { hashFunction := hf, height := height, sk := List.replicate 132 0, seed := seed })
    hw hs h32 he
  have hu := height.toNat_lt
  refine ⟨st, H, ?_⟩
  rw [XMSSFast.new, if_neg (by omega), XMSSBase.new, if_neg (by omega), if_neg (by omega), ok_bind, XMSSFast.build, e]
  rfl

/-! ## The path of the simple signer -/

/-- The slot read for level `i` of the path, in a tree of `2 ^ m` leaves. -/
def tallSlot (m idx i : Nat) : Nat := (2 ^ m >>> (i % 32)) + ((idx >>> (i % 64)) ^^^ 1)

theorem tallSlot_bounds {m idx i : Nat} (hm : 1 ≤ m) (hi : idx < 2 ^ m) : 1 ≤ tallSlot m idx i ∧ tallSlot m idx i < 2 ^ (m + 1) := by
  have hs : idx >>> (i % 64) ≤ idx := by rw [Nat.shiftRight_eq_div_pow]; exact Nat.div_le_self ..
  have hx : (idx >>> (i % 64)) ^^^ 1 < 2 ^ m :=
    Nat.xor_lt_two_pow (by omega) (Nat.lt_of_lt_of_le (by omega) (Nat.pow_le_pow_right (by omega) hm : 2 ^ 1 ≤ 2 ^ m))
  have h2 : 2 ^ m >>> (i % 32) ≤ 2 ^ m := by rw [Nat.shiftRight_eq_div_pow]; exact Nat.div_le_self ..
  rw [tallSlot]
  refine ⟨?_, by rw [Nat.pow_succ]; omega⟩
  by_cases hj : i % 32 ≤ m
  · have : 0 < 2 ^ m >>> (i % 32) := by
      rw [Nat.shiftRight_eq_div_pow]
      exact Nat.div_pos (Nat.pow_le_pow_right (by omega) hj) (Nat.two_pow_pos _)
    omega
  · have h0 : idx >>> (i % 64) = 0 := by
      rw [Nat.shiftRight_eq_div_pow]
      exact Nat.div_eq_of_lt (Nat.lt_of_lt_of_le hi (Nat.pow_le_pow_right (by omega) (by omega)))
    rw [h0]
    exact Nat.le_add_left ..

/-- Slot `s` of a complete tree of height `m`. -/
def slotNode (N : Nat → Nat → Bytes) (m s : Nat) : Bytes := N (m - s.log2) (s - 2 ^ s.log2)

theorem slotNode_eq {N : Nat → Nat → Bytes} {m : Nat} {tree : List Cell}
    (hT : ∀ l' ≤ m, ∀ j < 2 ^ (m - l'), tree[2 ^ (m - l') + j]? = some (some (N l' j))) {s : Nat} (h1 : 1 ≤ s) (h2 : s < 2 ^ (m + 1)) :
    tree[s]? = some (some (slotNode N m s)) := by
  have hl : s.log2 < m + 1 := (Nat.log2_lt (by omega)).mpr h2
  have hlo : 2 ^ s.log2 ≤ s := Nat.log2_self_le (by omega)
  have hhi : s < 2 ^ (s.log2 + 1) := Nat.lt_log2_self
  rw [Nat.pow_succ] at hhi
  have := hT (m - s.log2) (by omega) (s - 2 ^ s.log2) (by rw [show m - (m - s.log2) = s.log2 by omega]; omega)
  rw [show m - (m - s.log2) = s.log2 by omega, show 2 ^ s.log2 + (s - 2 ^ s.log2) = s by omega] at this
  exact this

theorem authCopy_tall (N : Nat → Nat → Bytes) (tree : List Cell) (m idx : Nat) (hm : 1 ≤ m) (hm24 : m ≤ 24) (hi : idx < 2 ^ m)
    (hT : ∀ l' ≤ m, ∀ j < 2 ^ (m - l'), tree[2 ^ (m - l') + j]? = some (some (N l' j))) (c : Nat) : ∀ i,
    authCopy .release tree (2 ^ m) idx c i = ok ((List.range' i c).map fun l => slotNode N m (tallSlot m idx l)) := by
  induction c with
  | zero => intro i; rfl
  | succ c ih =>
    intro i
    obtain ⟨b1, b2⟩ := tallSlot_bounds (i := i) hm hi
    have hp : 2 ^ (m + 1) ≤ 2 ^ 25 := Nat.pow_le_pow_right (by omega) (by omega)
    have hshr : shr .release (2 ^ m) i = ok (2 ^ m >>> (i % 32)) := by
      rw [shr.eq_def]
      split
      · rw [Nat.mod_eq_of_lt ‹_›]
      · rfl
    have hn : rdNode tree (tallSlot m idx i) = ok (slotNode N m (tallSlot m idx i)) := by
      rw [rdNode, slotNode_eq hT b1 b2]
    rw [List.range'_succ, List.map_cons]
    generalize slotNode N m (tallSlot m idx i) = x at *
    rw [tallSlot] at b2 hn
    rw [authCopy, hshr, ok_bind]
    generalize 2 ^ m >>> (i % 32) = g at *
    rw [Nat.mod_eq_of_lt (show (idx >>> (i % 64)) ^^^ 1 < 2 ^ 32 by omega), u32_lt _ (by omega), ok_bind, u32_lt _ (by omega), ok_bind,
      u32_lt _ (by omega), ok_bind, show (g * 32 + ((idx >>> (i % 64)) ^^^ 1) * 32) / 32 = g + ((idx >>> (i % 64)) ^^^ 1) by omega,
      hn, ok_bind, ih (i + 1), ok_bind]

theorem slotNode_low (N : Nat → Nat → Bytes) {m idx i : Nat} (hm : m ≤ 31) (hi : i < m) (hidx : idx < 2 ^ m) :
    slotNode N m (tallSlot m idx i) = N i (Spec.sibling (idx / 2 ^ i)) := by
  have hsib : Spec.sibling (idx / 2 ^ i) < 2 ^ (m - i) := by
    obtain ⟨k, hk⟩ : ∃ k, m - i = k + 1 := ⟨m - i - 1, by omega⟩
    rw [hk]
    apply sibling_lt
    apply Nat.div_lt_of_lt_mul
    rw [← Nat.pow_add, show i + (k + 1) = m by omega]
    exact hidx
  have hs : tallSlot m idx i = 2 ^ (m - i) + Spec.sibling (idx / 2 ^ i) := by
    rw [tallSlot, Nat.mod_eq_of_lt (show i < 32 by omega), Nat.mod_eq_of_lt (show i < 64 by omega), xor_one,
      Nat.shiftRight_eq_div_pow, Nat.shiftRight_eq_div_pow, Nat.pow_div (by omega) (by omega)]
  have hl : (2 ^ (m - i) + Spec.sibling (idx / 2 ^ i)).log2 = m - i := by
    rw [Nat.log2_eq_iff (by have := Nat.two_pow_pos (m - i); omega), Nat.pow_succ]
    omega
  rw [slotNode, hs, hl, show m - (m - i) = i by omega, Nat.add_sub_cancel_left]

theorem authLeaves_params (hf : HashFn) (sk : Bytes) (wp : WotsParams) (h h' : Nat) (ps : Bytes) (num : Nat) (b : Build) : ∀ (m i : Nat) (tree : List Cell) (la oa : Adrs),
    authLeaves b S hf sk ⟨wp, h⟩ ps num m i tree la oa = authLeaves b S hf sk ⟨wp, h'⟩ ps num m i tree la oa := by
  intro m
  induction m with
  | zero => intros; rfl
  | succ m ih =>
    intro i tree la oa
    rw [authLeaves, authLeaves]
    simp only [ih]
    rfl

/-- The path of a tall tree: `h` nodes, the first of them those of a tree of height `h % 32`. -/
theorem computeAuthpath_wrap (hf : HashFn) (wp : WotsParams) (sk ps : Bytes) (hs : sk.length = 32) (hps : ps.length = 32)
    (h1 : 1 ≤ wp.len) (h : Nat) (h32 : 32 ≤ h) (hm1 : 1 ≤ h % 32) (hm24 : h % 32 ≤ 24) (idx : Nat) (hidx : idx < 2 ^ (h % 32)) (a b c d e : Nat) :
    computeAuthpathWots .release S hf idx sk ⟨wp, h⟩ ps ⟨0, 0, 0, a, b, c, d, e⟩ =
      ok (Spec.node (hf.prim S) wp.w wp.len sk ps (h % 32) 0,
        Spec.authPath (hf.prim S) wp.w wp.len sk ps (h % 32) idx ++
          (List.range' (h % 32) (h - h % 32)).map fun l =>
            slotNode (Spec.node (hf.prim S) wp.w wp.len sk ps) (h % 32) (tallSlot (h % 32) idx l)) := by
  generalize hm : h % 32 = m at *
  have hpw : 2 ^ m ≤ 2 ^ 24 := Nat.pow_le_pow_right (by omega) hm24
  obtain ⟨t1, e1, e2, e3⟩ := authLeaves_eq S hf ⟨wp, m⟩ sk ps h1 (2 ^ m) 0 (List.replicate (2 * 2 ^ m) none)
    0 0 0 0 0 0 0 0 (by simp only; omega) (by simp) (by intro j hj; omega)
  obtain ⟨t2, e4, _, e5⟩ := authLevels_len S hf wp.w wp.len sk ps m m 0 t1 0 0 0 (by omega) e2 (by
    intro l' hl' j hj
    obtain rfl : l' = 0 := by omega
    exact e3 j (by simpa using hj))
  have f1 := authLeaves_sim S hf .release sk ⟨wp, m⟩ ps (by omega) (by omega) (by simp only; omega) (2 ^ m) 0
    (List.replicate (2 * 2 ^ m) none) ⟨0, 0, 0, 1, 0, 0, 0, 0⟩ ⟨0, 0, 0, 0, 0, 0, 0, 0⟩ (by simp only; omega)
  rw [take32_of hs, take32_of hps] at f1
  have f1 := f1 _ e1
  have f2 := authLevels_sim S hf ps (by omega) (2 ^ m) 0 t1 ⟨0, 0, 0, 2, 0, 0, 0, 0⟩
  rw [take32_of hps] at f2
  have f2 := f2 _ e4
  have hr := e5 m (Nat.le_refl _) 0 (Nat.two_pow_pos _)
  simp only [Nat.sub_self, Nat.pow_zero, Nat.add_zero] at hr
  unfold computeAuthpathWots
  dsimp only
  rw [shl1_tall h32, hm, ok_bind, u32_lt _ (by omega), ok_bind, u32_lt _ (by omega), ok_bind,
    show 2 * 2 ^ m * 32 / 32 = 2 * 2 ^ m by omega, authLeaves_params hf sk wp h m]
  rw [show derive ⟨0, 0, 0, a, b, c, d, e⟩ 0 = ⟨0, 0, 0, 0, 0, 0, 0, 0⟩ from rfl,
    show derive ⟨0, 0, 0, a, b, c, d, e⟩ 1 = ⟨0, 0, 0, 1, 0, 0, 0, 0⟩ from rfl,
    show derive ⟨0, 0, 0, a, b, c, d, e⟩ 2 = ⟨0, 0, 0, 2, 0, 0, 0, 0⟩ from rfl, f1, ok_bind, f2, ok_bind,
    authCopy_tall _ t2 m idx hm1 hm24 hidx e5, ok_bind, sim_rdNode _ _ _ (rdUse_eq_ok hr), ok_bind]
  congr 2
  rw [show h = m + (h - m) by omega, ← List.range'_append_1, List.map_append, Nat.zero_add, show m + (h - m) - m = h - m by omega]
  congr 1
  rw [Spec.authPath, List.range_eq_range']
  refine List.map_congr_left fun i hi => ?_
  rw [List.mem_range'_1] at hi
  exact slotNode_low _ (by omega) (by omega) hidx

/-- The nodes an `XMSSBasic` of tall height appends to the signature of height `h % 32`. -/
def tallExtra (S : Sha256) (hf : HashFn) (w h : Nat) (K : KeyParts) (i : Nat) : Bytes :=
  ((List.range' (h % 32) (h - h % 32)).map fun l =>
    slotNode (Spec.node (hf.prim S) w (Spec.rustLen w) K.skSeed K.ps) (h % 32) (tallSlot (h % 32) i l)).flatten

theorem length_tallExtra (hf : HashFn) {w : Nat} (hw : Spec.RangeW w) (h : Nat) (K : KeyParts) (i : Nat) :
    (tallExtra S hf w h K i).length = 32 * (h - h % 32) := by
  rw [tallExtra, length_flatten32]
  · rw [List.length_map, List.length_range']
  · intro x hx
    obtain ⟨l, -, rfl⟩ := List.mem_map.mp hx
    exact length_node S hf _ _ _ _ (rustLen_pos hw) _ _

/-- `sign` of an `XMSSBasic` of tall height. -/
theorem basic_sign_tall {w : Nat} (hw : Spec.RangeW w) (o0 : XMSSBasic)
    (hop : o0.params = ⟨wotsParams w, o0.height.toNat⟩) (h32 : 32 ≤ o0.height.toNat) (hm1 : 1 ≤ o0.height.toNat % 32)
    (hm24 : o0.height.toNat % 32 ≤ 24) (K : KeyParts)
    (hroot : K.root = Spec.node (o0.hashFunction.prim S) w (Spec.rustLen w) K.skSeed K.ps (o0.height.toNat % 32) 0)
    (i : Nat) (hi : i < 2 ^ (o0.height.toNat % 32)) (m : Bytes) :
    (basicAt K o0 i).sign .release S m =
      match sigW .release S o0.hashFunction w (o0.height.toNat % 32) K i m with
      | none => panic
      | some s => ok (s ++ tallExtra S o0.hashFunction w o0.height.toNat K i, basicAt K o0 (i + 1)) := by
  have hpw : 2 ^ (o0.height.toNat % 32) ≤ 2 ^ 24 := Nat.pow_le_pow_right (by omega) hm24
  have hpath := fun b' c' d' => computeAuthpath_wrap (S := S) o0.hashFunction (wotsParams w) K.skSeed K.ps K.l1 K.l3 (rustLen_pos hw)
    o0.height.toNat h32 hm1 hm24 i hi 0 i b' c' d'
  rw [XMSSBasic.sign]
  simp only [basicAt, hop]
  rw [signMsg_rsAny .release o0.hashFunction hw _ K i (by omega) _ _ m hpath, sigW, Spec.rustSignatureAny, ← hroot]
  cases Spec.rustSigned o0.hashFunction (Spec.PRF (o0.hashFunction.prim S) K.skPrf (Spec.be 32 i) ++ K.root ++ Spec.be 32 i) m with
  | none => rfl
  | some m' =>
    rw [Option.bind_eq_bind, Option.bind_some]
    dsimp only
    have hd : (Spec.digest (o0.hashFunction.prim S) (Spec.PRF (o0.hashFunction.prim S) K.skPrf (Spec.be 32 i)) K.root i m').length = 32 := by
      rw [Spec.digest]; exact length_Hmsg ..
    generalize hds : Spec.rustPositions .release w (Spec.digest (o0.hashFunction.prim S) (Spec.PRF (o0.hashFunction.prim S) K.skPrf (Spec.be 32 i)) K.root i m') = od
    cases od with
    | none => rfl
    | some ds =>
      rw [Option.bind_eq_bind, Option.bind_some]
      dsimp only
      have hl := length_sigFrom (S := S) o0.hashFunction hw K (o0.height.toNat % 32) i ds (rustPositions_props hw hd hds).1
      have hx := length_tallExtra (S := S) o0.hashFunction hw o0.height.toNat K i
      rw [List.flatten_append, ← List.append_assoc]
      show (ok (K.sk (i + 1), Spec.signatureFrom (o0.hashFunction.prim S) w (o0.height.toNat % 32) K.skSeed K.skPrf K.ps i ds ++
        tallExtra S o0.hashFunction w o0.height.toNat K i) >>= fun x => _) = _
      rw [ok_bind, fillBuffer_exact, ok_bind]
      rw [List.length_append, hl, hx]
      show _ = 4 + 32 + (wotsParams w).keysize + o0.height.toNat * 32
      rw [show (wotsParams w).keysize = Spec.rustLen w * 32 from rfl]
      have := Nat.mod_le o0.height.toNat 32
      omega

/-! ## The first signature of an `XMSSFast` -/

theorem authOut_ok {auth : List Cell} (hc : Cells32 auth) : ∀ (m i : Nat), i + m ≤ auth.length →
    ∃ xs, authOut auth m i = ok xs ∧ xs.flatten.length = 32 * m := by
  intro m
  induction m with
  | zero => intro i _; exact ⟨[], rfl, rfl⟩
  | succ m ih =>
    intro i hi
    obtain ⟨xs, e, hl⟩ := ih (i + 1) (by omega)
    have : ∃ x, rdNode auth i = ok x ∧ x.length = 32 := by
      have hg := hc.get (show i < auth.length by omega)
      rw [rdNode, List.getElem?_eq_getElem (show i < auth.length by omega)]
      cases hx : auth[i] with
      | none => exact ⟨_, rfl, List.length_replicate ..⟩
      | some x => exact ⟨x, rfl, hg x hx⟩
    obtain ⟨x, ex, hxl⟩ := this
    refine ⟨x :: xs, by rw [authOut, ex, ok_bind, e, ok_bind], ?_⟩
    rw [List.flatten_cons, List.length_append, hl, hxl]; omega

theorem pickLevel_done {p : XmssParams} {st : BdsState} (hd : ∀ t ∈ st.treehash, t.completed = true) : ∀ (m i level : Nat),
    i + m ≤ st.treehash.length → pickLevel st p m i level p.h = ok level := by
  intro m
  induction m with
  | zero => intros; rfl
  | succ m ih =>
    intro i level hi
    rw [pickLevel, rd_lt (show i < st.treehash.length by omega), ok_bind, if_pos (hd _ (List.getElem_mem _)), ok_bind]
    show (if p.h < p.h then _ else _) = _
    rw [if_neg (Nat.lt_irrefl _), ih _ _ (by omega)]

theorem treehashUpdate_done (hf : HashFn) (sk ps : Bytes) (a : Adrs) {p : XmssParams} {st : BdsState} (hl : st.treehash.length = p.h - 2)
    (hd : ∀ t ∈ st.treehash, t.completed = true) (n : Nat) : bdsTreehashUpdate S hf sk p ps a n st = ok st := by
  cases n with
  | zero => rfl
  | succ n => rw [bdsTreehashUpdate, pickLevel_done hd _ _ _ (by omega), ok_bind, if_pos rfl]

theorem findTau_zero (h : Nat) (hh : 0 < h) : findTau 0 h h 0 = 0 := by
  obtain ⟨k, rfl⟩ : ∃ k, h = k + 1 := ⟨h - 1, by omega⟩
  rfl

theorem bdsRound_first (hf : HashFn) {p : XmssParams} (h1 : 1 ≤ p.wots.len) (hh : 4 ≤ p.h) {st : BdsState} (H : Shape p.h st)
    (sk ps : Bytes) (hs : sk.length = 32) (hps : ps.length = 32) (a b c d : Nat) :
    ∃ st', bdsRound S hf st 0 sk p ps ⟨0, 0, 0, 0, a, b, c, d⟩ = ok st' ∧ st'.treehash = st.treehash := by
  obtain ⟨t5', t6', t7', o5', o6', o7', hleaf⟩ := genLeafWots_eq S hf (sk.take 32) p (ps.take 32) h1 0 0 0 0 0 0 0
  have hleaf := genLeafWots_sim S hf sk p ps _ _ (by omega) (by omega) _ hleaf
  have hk : 0 < st.keep.length := by
    rw [H.keep, Nat.shiftRight_eq_div_pow]; omega
  have ha : 0 < st.auth.length := by rw [H.auth]; omega
  rw [bdsRound]
  simp only [findTau_zero p.h (by omega)]
  rw [if_neg (Nat.lt_irrefl _)]
  simp only [ok_bind]
  rw [if_pos (show (0 >>> (0 + 1)) &&& 1 = 0 ∧ 0 < p.h - 1 from ⟨rfl, by omega⟩), rd_lt ha, ok_bind,
    wr_lt _ (show 0 >>> 1 < st.keep.length from hk), ok_bind]
  simp only [if_true]
  rw [show setLtree (derive ⟨0, 0, 0, 0, a, b, c, d⟩ 1) 0 = ⟨0, 0, 0, 1, 0, 0, 0, 0⟩ from rfl,
    show setOTS (derive ⟨0, 0, 0, 0, a, b, c, d⟩ 0) 0 = ⟨0, 0, 0, 0, 0, 0, 0, 0⟩ from rfl, hleaf]
  simp only [ok_bind]
  rw [wr_lt _ ha, ok_bind]
  exact ⟨_, rfl, rfl⟩

/-- The first `sign` of a new `XMSSFast` of tall height. -/
theorem fast_sign_first {w : Nat} (hw : Spec.RangeW w) (o : XMSSFast) (hop : o.params = ⟨wotsParams w, o.height.toNat⟩)
    (h32 : 32 ≤ o.height.toNat) (K : KeyParts) (hsk : o.sk = K.sk 0) (H : Shape o.height.toNat o.state)
    (hroot : K.root = Spec.node (o.hashFunction.prim S) w (Spec.rustLen w) K.skSeed K.ps (o.height.toNat % 32) 0) (m : Bytes) :
    match sigW .release S o.hashFunction w (o.height.toNat % 32) K 0 m with
    | none => o.sign .release S m = .panic
    | some s => ∃ extra st', o.sign .release S m =
        .ret (s.take (36 + 32 * Spec.rustLen w) ++ extra) { o with sk := K.sk 1, state := st' } := by
  have s0 := be32At_sim _ _ (K.idx 0 (by omega))
  have s1 := sim_slice _ _ _ _ (K.seed_slice 0)
  have s2 := sim_slice _ _ _ _ (K.prf_slice 0)
  have s3 := sim_slice _ _ _ _ (K.ps_slice 0)
  have s4 := sim_slice _ _ _ _ (K.root_slice 1)
  have hpos : 0 < 2 ^ (o.height.toNat % 32) := Nat.two_pow_pos _
  have hidx : o.getIndex = ok 0 := getIndex_sim o.toXMSSBase o.params 0 (K.getIndex _ 0 hsk (by omega))
  have hset : o.setIndex .release S 0 = .ret 0 { o with sk := K.sk 0 } := by
    rw [XMSSFast.setIndex, xmssFastUpdate, hop, shl1_tall h32, hsk, ok_bind, s0, ok_bind, if_neg (by omega), if_neg (by omega),
      s1, ok_bind, s3, ok_bind]
    show Step.ofRes o ((advanceLoop S o.hashFunction K.skSeed _ K.ps 0 0 o.state >>= fun st => _) >>= _) = _
    rw [advanceLoop, ok_bind, ok_bind, show idxBytes 0 ++ (K.sk 0).drop 4 = K.sk 0 from K.reindex 0 0]
    rfl
  rw [XMSSFast.sign, hidx]
  simp only
  rw [hset]
  simp only
  rw [xmssFastSignMsg]
  simp only [s0, s1, s2, s3, ok_bind, u32_lt .release (show 0 + 1 < 2 ^ 32 by omega), toByte_rs]
  rw [prf_rs S _ _ K.skPrf (length_toByte _ _) (by rw [K.l2]), take32_of K.l2]
  simp only [ok_bind, prf_eq, toByte_eq_be]
  rw [show idxBytes (0 + 1) ++ (K.sk 0).drop 4 = K.sk 1 from K.reindex 0 1, s4]
  simp only [ok_bind]
  rw [hMsg_rs _ _ _ (length_signKey _ K 0), sigW, Spec.rustSignatureAny, ← hroot]
  cases Spec.rustSigned o.hashFunction (Spec.PRF (o.hashFunction.prim S) K.skPrf (Spec.be 32 0) ++ K.root ++ Spec.be 32 0) m with
  | none => rfl
  | some m' =>
    rw [Option.bind_eq_bind, Option.bind_some]
    dsimp only
    rw [ok_bind, hMsg_eq]
    have hd : (Spec.digest (o.hashFunction.prim S) (Spec.PRF (o.hashFunction.prim S) K.skPrf (Spec.be 32 0)) K.root 0 m').length = 32 := by
      rw [Spec.digest]; exact length_Hmsg ..
    rw [show Spec.Hmsg (o.hashFunction.prim S) (Spec.PRF (o.hashFunction.prim S) K.skPrf (Spec.be 32 0) ++ K.root ++ Spec.be 32 0) m' =
      Spec.digest (o.hashFunction.prim S) (Spec.PRF (o.hashFunction.prim S) K.skPrf (Spec.be 32 0)) K.root 0 m' from rfl]
    rw [fastSignDigest]
    dsimp only
    rw [getSeed_rs S _ _ _ (by rw [K.l1]), take32_of K.l1,
      show setOTS (setType {} 0) 0 = ⟨0, 0, 0, 0, 0, 0, 0, 0⟩ from rfl, getSeed_eq]
    simp only [ok_bind, hop]
    generalize hds : Spec.rustPositions .release w (Spec.digest (o.hashFunction.prim S) (Spec.PRF (o.hashFunction.prim S) K.skPrf (Spec.be 32 0)) K.root 0 m') = od
    cases od with
    | none =>
      rw [Option.bind_eq_bind, Option.bind_none]
      dsimp only
      rw [wotsSign, signDigits_none hw hd hds]
      rfl
    | some ds =>
      rw [Option.bind_eq_bind, Option.bind_some]
      dsimp only
      have hdl := (rustPositions_props hw hd hds).1
      obtain ⟨x', y', z', e⟩ := wotsSign_rsAny (S := S) o.hashFunction hw hd hds K.skSeed K.ps K.l3 0 0 0 0
      rw [e]
      simp only [ok_bind]
      obtain ⟨xs, ex, hxl⟩ := authOut_ok H.size o.height.toNat 0 (by rw [H.auth]; omega)
      rw [ex, ok_bind, shl1_tall h32, ok_bind]
      have hw36 : (Spec.be 4 0 ++ Spec.PRF (o.hashFunction.prim S) K.skPrf (Spec.be 32 0) ++
          (Spec.wotsSig (o.hashFunction.prim S) K.skSeed K.ps 0 ds).flatten).length = 36 + 32 * Spec.rustLen w := by
        simp only [List.length_append, length_be, length_PRF, length_flatten32 _ (mem_wotsSig S o.hashFunction _ _ 0 _)]
        simp only [Spec.wotsSig, List.length_map, List.length_zipIdx, hdl]
      have fin : ∀ st', (Step.ofRes { o with sk := K.sk 0 } (fillBuffer (o.getSignatureSize (wotsParams w).w)
          (idxBytes 0 ++ Spec.PRF (o.hashFunction.prim S) K.skPrf (Spec.be 32 0) ++
            (Spec.wotsSig (o.hashFunction.prim S) K.skSeed K.ps 0 ds).flatten ++ xs.flatten) >>= fun sig =>
              ok (sig, { o with sk := K.sk 1, state := st' }))) =
          .ret ((Spec.signatureFrom (o.hashFunction.prim S) w (o.height.toNat % 32) K.skSeed K.skPrf K.ps 0 ds).take (36 + 32 * Spec.rustLen w) ++ xs.flatten)
            { o with sk := K.sk 1, state := st' } := by
        intro st'
        rw [show idxBytes 0 = Spec.be 4 0 from idxBytes_eq 0, fillBuffer_exact, ok_bind]
        · rw [Spec.signatureFrom, List.take_left' hw36]
          rfl
        · rw [List.length_append, hw36, hxl]
          show _ = 4 + 32 + (wotsParams w).keysize + o.height.toNat * 32
          rw [show (wotsParams w).keysize = Spec.rustLen w * 32 from rfl]
          omega
      by_cases h0 : 0 < 2 ^ (o.height.toNat % 32) - 1
      · rw [if_pos h0]
        obtain ⟨st', er, et⟩ := bdsRound_first (S := S) o.hashFunction (p := ⟨wotsParams w, o.height.toNat⟩) (rustLen_pos hw)
          (by show 4 ≤ o.height.toNat; omega) H K.skSeed K.ps K.l1 K.l3 0 x' y' z'
        rw [er, ok_bind, treehashUpdate_done o.hashFunction _ _ _ (by rw [et]; exact H.len) (by rw [et]; exact H.done)]
        have f := fin st'
        simp only [hop] at f
        exact ⟨xs.flatten, st', f⟩
      · rw [if_neg h0]
        have f := fin o.state
        simp only [hop] at f
        exact ⟨xs.flatten, o.state, f⟩

end Qrl.Rs
