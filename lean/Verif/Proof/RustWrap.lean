import Verif.Proof.RustTall
import Verif.Spec.RustWrap
/-!
# The Rust `XMSSBasic` in a build without overflow checks, at every index
-/

namespace Qrl.Rs

open Res

variable {S : Sha256}

theorem wr_get0 {l l' : List Cell} {k : Nat} {x : Cell} (hk : 1 ≤ k) (h : wr l k x = ok l') : l'[0]? = l[0]? := by
  rw [wr] at h
  split at h
  · cases h
    rw [List.getElem?_set_ne (by omega)]
  · cases h

/-- Slot 0 is never written. -/
theorem authLeaves_slot0 (b : Build) (hf : HashFn) (sk : Bytes) (p : XmssParams) (ps : Bytes) (num : Nat) (h1 : 1 ≤ num) :
    ∀ (m i : Nat) (tree : List Cell) (la oa : Adrs) (t : List Cell), (num + i + m) * 32 ≤ 2 ^ 32 →
    authLeaves b S hf sk p ps num m i tree la oa = ok t → t[0]? = tree[0]? := by
  intro m
  induction m with
  | zero => intro i tree la oa t _ h; cases h; rfl
  | succ m ih =>
    intro i tree la oa t hb h
    rw [authLeaves] at h
    dsimp only at h
    rw [u32_lt b (by omega), ok_bind, u32_lt b (by omega), ok_bind, u32_lt b (by omega), ok_bind] at h
    obtain ⟨⟨leaf, la', oa'⟩, -, h⟩ := bind_eq_ok.mp h
    obtain ⟨tree', hw, h⟩ := bind_eq_ok.mp h
    rw [ih (i + 1) tree' la' oa' t (by omega) h, wr_get0 (by omega) hw]

theorem authRow_slot0 (hf : HashFn) (ps : Bytes) (i : Nat) (hi : 1 < i) :
    ∀ (m j : Nat) (tree : List Cell) (a : Adrs) (t : List Cell) (a' : Adrs),
    authRow S hf ps i m j tree a = ok (t, a') → t[0]? = tree[0]? := by
  intro m
  induction m with
  | zero => intro j tree a t a' h; cases h; rfl
  | succ m ih =>
    intro j tree a t a' h
    rw [authRow] at h
    dsimp only at h
    obtain ⟨l, -, h⟩ := bind_eq_ok.mp h
    obtain ⟨r, -, h⟩ := bind_eq_ok.mp h
    obtain ⟨⟨x, a1⟩, -, h⟩ := bind_eq_ok.mp h
    obtain ⟨tree', hw, h⟩ := bind_eq_ok.mp h
    have : i >>> 1 = i / 2 := Nat.shiftRight_eq_div_pow i 1
    rw [ih (j + 2) tree' a1 t a' h, wr_get0 (by omega) hw]

theorem authLevels_slot0 (hf : HashFn) (ps : Bytes) (i : Nat) : ∀ (level : Nat) (tree : List Cell) (a : Adrs) (t : List Cell),
    authLevels S hf ps i level tree a = ok t → t[0]? = tree[0]? := by
  induction i using Nat.strongRecOn with
  | ind i ih =>
    intro level tree a t h
    rw [authLevels] at h
    split at h
    · rename_i hi
      obtain ⟨⟨tree', a'⟩, hr, h⟩ := bind_eq_ok.mp h
      have : i >>> 1 = i / 2 := Nat.shiftRight_eq_div_pow i 1
      rw [ih (i >>> 1) (by omega) _ _ _ _ h, authRow_slot0 hf ps i hi _ _ _ _ _ _ hr]
    · cases h; rfl

theorem rdNode_slot (G : Bytes → Bytes) (w len : Nat) (sk ps : Bytes) (h : Nat) (tree : List Cell) (hl : tree.length = 2 * 2 ^ h)
    (h0 : tree[0]? = some none)
    (hT : ∀ l' ≤ h, ∀ j < 2 ^ (h - l'), tree[2 ^ (h - l') + j]? = some (some (Spec.node G w len sk ps l' j))) (s : Nat) :
    rdNode tree s = if s < 2 ^ (h + 1) then ok (Spec.slotBytes G w len sk ps h s) else panic := by
  rw [rdNode, Spec.slotBytes]
  by_cases hs : s < 2 ^ (h + 1)
  · rw [if_pos hs]
    by_cases hz : s = 0
    · rw [if_pos hz, hz, h0]
    · rw [if_neg hz, slotNode_eq hT (by omega) hs]
      rfl
  · rw [if_neg hs, List.getElem?_eq_none (by rw [hl]; rw [Nat.pow_succ] at hs; omega)]

theorem authCopy_release (G : Bytes → Bytes) (w len : Nat) (sk ps : Bytes) (h : Nat) (hh : h ≤ 24) (idx : Nat) (hi : idx < 2 ^ 32)
    (tree : List Cell) (hl : tree.length = 2 * 2 ^ h) (h0 : tree[0]? = some none)
    (hT : ∀ l' ≤ h, ∀ j < 2 ^ (h - l'), tree[2 ^ (h - l') + j]? = some (some (Spec.node G w len sk ps l' j))) (c : Nat) : ∀ i, i + c ≤ h →
    authCopy .release tree (2 ^ h) idx c i =
      if ∀ l, i ≤ l → l < i + c → Spec.wrapSlot h idx l < 2 ^ (h + 1) then
        ok ((List.range' i c).map fun l => Spec.slotBytes G w len sk ps h (Spec.wrapSlot h idx l))
      else panic := by
  induction c with
  | zero => intro i _; rw [if_pos (by intro l h1 h2; omega)]; rfl
  | succ c ih =>
    intro i hic
    have hx : (idx >>> i) ^^^ 1 < 2 ^ 32 := by
      have : idx >>> i ≤ idx := Nat.shiftRight_le _ _
      exact Nat.xor_lt_two_pow (by omega) (by omega)
    have hsl : Spec.wrapSlot h idx i = (2 ^ (h - i) + ((idx >>> i) ^^^ 1)) % 2 ^ 27 := by
      rw [Spec.wrapSlot, xor_one, Nat.shiftRight_eq_div_pow]
    rw [authCopy, shr_lt .release (by omega), ok_bind, Nat.mod_eq_of_lt (show i < 64 by omega), Nat.mod_eq_of_lt hx]
    simp only [u32_release, ok_bind]
    rw [show 2 ^ h >>> i = 2 ^ (h - i) by rw [Nat.shiftRight_eq_div_pow, Nat.pow_div (by omega) (by omega)]]
    rw [show (2 ^ (h - i) * 32 % 2 ^ 32 + (idx >>> i ^^^ 1) * 32 % 2 ^ 32) % 2 ^ 32 / 32 = Spec.wrapSlot h idx i by
      rw [hsl]; omega, rdNode_slot G w len sk ps h tree hl h0 hT, ih (i + 1) (by omega)]
    by_cases hs : Spec.wrapSlot h idx i < 2 ^ (h + 1)
    · rw [if_pos hs, ok_bind]
      by_cases hr : ∀ l, i + 1 ≤ l → l < i + 1 + c → Spec.wrapSlot h idx l < 2 ^ (h + 1)
      · rw [if_pos hr, if_pos, ok_bind]
        · rfl
        · intro l h1 h2
          by_cases hli : l = i
          · rw [hli]; exact hs
          · exact hr l (by omega) (by omega)
      · rw [if_neg hr, if_neg]
        · rfl
        · intro hall
          exact hr fun l h1 h2 => hall l (by omega) (by omega)
    · have hn : ¬ ∀ l, i ≤ l → l < i + (c + 1) → Spec.wrapSlot h idx l < 2 ^ (h + 1) := fun hall => hs (hall i (by omega) (by omega))
      rw [if_neg hs, if_neg hn]
      rfl

/-- `compute_authpath_wots` without overflow checks, at every index. -/
theorem computeAuthpath_release (hf : HashFn) (p : XmssParams) (sk ps : Bytes) (hs : sk.length = 32)
    (hps : ps.length = 32) (h1 : 1 ≤ p.wots.len) (hh : p.h ≤ 24) (idx : Nat) (h32 : idx < 2 ^ 32) (a b' c d e : Nat) :
    computeAuthpathWots .release S hf idx sk p ps ⟨0, 0, 0, a, b', c, d, e⟩ =
      if Spec.WrapFits p.h idx then
        ok (Spec.node (hf.prim S) p.wots.w p.wots.len sk ps p.h 0, Spec.wrapPath (hf.prim S) p.wots.w p.wots.len sk ps p.h idx)
      else panic := by
  have hpw : 2 ^ p.h ≤ 2 ^ 24 := Nat.pow_le_pow_right (by omega) hh
  have hpos : 0 < 2 ^ p.h := Nat.two_pow_pos _
  have hsz : (2 * 2 ^ p.h * 32) / 32 = 2 * 2 ^ p.h := by omega
  unfold computeAuthpathWots
  dsimp only
  rw [shl1_lt .release (by omega), ok_bind, u32_lt .release (by omega), ok_bind, u32_lt .release (by omega), ok_bind, hsz]
  obtain ⟨t1, e1, e2, e3⟩ := authLeaves_eq S hf p sk ps h1 (2 ^ p.h) 0 (List.replicate (2 * 2 ^ p.h) none)
    0 0 0 0 0 0 0 0 (by omega) (by simp) (by intro j hj; omega)
  have r1 := authLeaves_sim S hf .release sk p ps (by omega) (by omega) (by omega) (2 ^ p.h) 0 (List.replicate (2 * 2 ^ p.h) none)
    ⟨0, 0, 0, 1, 0, 0, 0, 0⟩ ⟨0, 0, 0, 0, 0, 0, 0, 0⟩ (by omega)
  rw [take32_of hs, take32_of hps] at r1
  rw [show derive ⟨0, 0, 0, a, b', c, d, e⟩ 1 = ⟨0, 0, 0, 1, 0, 0, 0, 0⟩ from rfl,
    show derive ⟨0, 0, 0, a, b', c, d, e⟩ 0 = ⟨0, 0, 0, 0, 0, 0, 0, 0⟩ from rfl,
    show derive ⟨0, 0, 0, a, b', c, d, e⟩ 2 = ⟨0, 0, 0, 2, 0, 0, 0, 0⟩ from rfl]
  have r1 := r1 _ e1
  obtain ⟨t2, e4, e5, e6⟩ := authLevels_len S hf p.wots.w p.wots.len sk ps p.h p.h 0 t1 0 0 0 (by omega) e2 (by
    intro l' hl' j hj
    obtain rfl : l' = 0 := by omega
    exact e3 j (by simpa using hj))
  have r2 := authLevels_sim S hf ps (by omega) (2 ^ p.h) 0 t1 ⟨0, 0, 0, 2, 0, 0, 0, 0⟩
  rw [take32_of hps] at r2
  have r2 := r2 _ e4
  have hz : t2[0]? = some none := by
    rw [authLevels_slot0 hf ps _ _ _ _ _ r2, authLeaves_slot0 .release hf sk p ps _ hpos _ _ _ _ _ _ (by omega) r1,
      List.getElem?_replicate, if_pos (by omega)]
  have hr := e6 p.h (Nat.le_refl _) 0 (Nat.two_pow_pos _)
  simp only [Nat.sub_self, Nat.pow_zero, Nat.add_zero] at hr
  rw [r1, ok_bind, r2, ok_bind, authCopy_release _ _ _ _ _ _ hh idx h32 t2 e5 hz e6 p.h 0 (by omega)]
  by_cases hw : Spec.WrapFits p.h idx
  · rw [if_pos hw, if_pos (fun l _ hl => hw l (by omega)), ok_bind, sim_rdNode _ _ _ (rdUse_eq_ok hr), ok_bind]
    rw [Spec.wrapPath, List.range_eq_range']
  · rw [if_neg hw, if_neg (fun hall => hw fun l hl => hall l (by omega) (by omega))]
    rfl

/-- `WrapFits` holds inside the tree, and the path is the right one. -/
theorem wrap_inside {h i : Nat} (hh : h ≤ 24) (hi : i < 2 ^ h) :
    Spec.WrapFits h i ∧ ∀ (G : Bytes → Bytes) (w len : Nat) (sk ps : Bytes),
      Spec.wrapPath G w len sk ps h i = Spec.authPath G w len sk ps h i := by
  have key : ∀ l, l < h → Spec.wrapSlot h i l = tallSlot h i l ∧ tallSlot h i l < 2 ^ (h + 1) ∧ 1 ≤ tallSlot h i l := by
    intro l hl
    obtain ⟨b1, b2⟩ := tallSlot_bounds (m := h) (idx := i) (i := l) (by omega) hi
    have hp : 2 ^ (h + 1) ≤ 2 ^ 25 := Nat.pow_le_pow_right (by omega) (by omega)
    refine ⟨?_, b2, b1⟩
    have : tallSlot h i l = 2 ^ (h - l) + Spec.sibling (i / 2 ^ l) := by
      rw [tallSlot, Nat.mod_eq_of_lt (show l < 32 by omega), Nat.mod_eq_of_lt (show l < 64 by omega), xor_one,
        Nat.shiftRight_eq_div_pow, Nat.shiftRight_eq_div_pow, Nat.pow_div (by omega) (by omega)]
    rw [Spec.wrapSlot, ← this, Nat.mod_eq_of_lt (by omega)]
  refine ⟨fun l hl => by rw [(key l hl).1]; exact (key l hl).2.1, fun G w len sk ps => ?_⟩
  rw [Spec.wrapPath, Spec.authPath]
  refine List.map_congr_left fun l hl => ?_
  have hl := List.mem_range.mp hl
  rw [(key l hl).1, Spec.slotBytes, if_neg (by have := (key l hl).2.2; omega)]
  exact slotNode_low (Spec.node G w len sk ps) (by omega) hl hi

/-- The heap slot holds 32 bytes. -/
theorem length_slotBytes (hf : HashFn) (w len : Nat) (sk ps : Bytes) (hl : 1 ≤ len) (h s : Nat) :
    (Spec.slotBytes (hf.prim S) w len sk ps h s).length = 32 := by
  rw [Spec.slotBytes]
  split
  · exact List.length_replicate
  · exact length_node S hf _ _ _ _ hl _ _

theorem length_wrapPath (hf : HashFn) (w len : Nat) (sk ps : Bytes) (hl : 1 ≤ len) (h i : Nat) :
    (Spec.wrapPath (hf.prim S) w len sk ps h i).flatten.length = 32 * h := by
  rw [length_flatten32]
  · rw [Spec.wrapPath, List.length_map, List.length_range]
  · intro x hx
    obtain ⟨l, -, rfl⟩ := List.mem_map.mp hx
    exact length_slotBytes hf _ _ _ _ hl _ _

/-- `sign` without overflow checks at every index. -/
theorem basic_sign_release (seed : Bytes) {w : Nat} (hw : Spec.RangeW w) (o0 : XMSSBasic)
    (hop : o0.params = ⟨wotsParams w, o0.height.toNat⟩) (hh : o0.height.toNat ≤ 24) (i : Nat) (h32 : i < 2 ^ 32) (m : Bytes) :
    (basicAt (keyP S o0.hashFunction w (Spec.rustLen w) o0.height.toNat (rustLen_pos hw) seed) o0 i).sign .release S m =
      match Spec.wrapSignature S o0.hashFunction w o0.height.toNat seed i m with
      | none => panic
      | some s => ok (s, basicAt (keyP S o0.hashFunction w (Spec.rustLen w) o0.height.toNat (rustLen_pos hw) seed) o0 ((i + 1) % 2 ^ 32)) := by
  generalize hK : keyP S o0.hashFunction w (Spec.rustLen w) o0.height.toNat (rustLen_pos hw) seed = K
  have k1 : (Qrl.shake256 96 seed).take 32 = K.skSeed := by rw [← hK]; rfl
  have k2 : ((Qrl.shake256 96 seed).drop 32).take 32 = K.skPrf := by rw [← hK]; rfl
  have k3 : (Qrl.shake256 96 seed).drop 64 = K.ps := by rw [← hK]; rfl
  have hroot : K.root = Spec.node (o0.hashFunction.prim S) w (Spec.rustLen w) K.skSeed K.ps o0.height.toNat 0 := by rw [← hK]; rfl
  have hpath := fun b' c' d' => computeAuthpath_release (S := S) o0.hashFunction ⟨wotsParams w, o0.height.toNat⟩ K.skSeed K.ps K.l1 K.l3
    (rustLen_pos hw) hh i h32 0 i b' c' d'
  rw [XMSSBasic.sign, Spec.wrapSignature]
  simp only [basicAt, hop, k1, k2, k3, ← hroot]
  by_cases hf : Spec.WrapFits o0.height.toNat i
  · simp only [if_pos hf] at hpath ⊢
    rw [signMsg_next .release o0.hashFunction hw _ K i h32 _ (u32_release _) _ _ m hpath]
    cases Spec.rustSigned o0.hashFunction (Spec.PRF (o0.hashFunction.prim S) K.skPrf (Spec.be 32 i) ++ K.root ++ Spec.be 32 i) m with
    | none => rfl
    | some m' =>
      rw [Option.bind_eq_bind, Option.bind_some]
      dsimp only
      have hd : (Spec.digest (o0.hashFunction.prim S) (Spec.PRF (o0.hashFunction.prim S) K.skPrf (Spec.be 32 i)) K.root i m').length = 32 := by
        rw [Spec.digest]; exact length_Hmsg ..
      generalize hds : Spec.rustPositions .release w (Spec.digest (o0.hashFunction.prim S) (Spec.PRF (o0.hashFunction.prim S) K.skPrf (Spec.be 32 i)) K.root i m') = od
      cases od with
      | none => rfl
      | some ds =>
        rw [Option.bind_eq_bind, Option.bind_some]
        dsimp only
        rw [ok_bind, fillBuffer_exact]
        · rfl
        · show _ = 4 + 32 + (wotsParams w).keysize + o0.height.toNat * 32
          rw [show (wotsParams w).keysize = Spec.rustLen w * 32 from rfl]
          simp only [List.length_append, length_be, length_PRF, length_flatten32 _ (mem_wotsSig S o0.hashFunction _ _ _ _)]
          rw [show (wotsParams w).len = Spec.rustLen w from rfl, length_wrapPath _ _ _ _ _ (rustLen_pos hw)]
          simp only [Spec.wotsSig, List.length_map, List.length_zipIdx, (rustPositions_props hw hd hds).1]
          omega
  · simp only [if_neg hf] at hpath ⊢
    rw [signMsg_panic_any .release o0.hashFunction hw o0.height.toNat K i h32 m hpath]
    rfl

/-- Histories without overflow checks. -/
theorem basic_run_release (seed : Bytes) {w : Nat} (hw : Spec.RangeW w) (o0 : XMSSBasic)
    (hop : o0.params = ⟨wotsParams w, o0.height.toNat⟩) (hh : o0.height.toNat ≤ 24) (cs : List Call) : ∀ i, i < 2 ^ 32 →
    runCalls (XMSSBasic.call .release S)
        (basicAt (keyP S o0.hashFunction w (Spec.rustLen w) o0.height.toNat (rustLen_pos hw) seed) o0 i) cs =
      (Spec.wrapRun (Spec.wrapSignature S o0.hashFunction w o0.height.toNat seed) i cs).map
        (fun x => (x.1, basicAt (keyP S o0.hashFunction w (Spec.rustLen w) o0.height.toNat (rustLen_pos hw) seed) o0 x.2)) ∧
    ∀ x, Spec.wrapRun (Spec.wrapSignature S o0.hashFunction w o0.height.toNat seed) i cs = some x → x.2 < 2 ^ 32 := by
  induction cs with
  | nil => intro i hi; exact ⟨rfl, fun x h => by cases h; exact hi⟩
  | cons c cs ih =>
    intro i hi
    cases c with
    | setIndex n =>
      obtain ⟨e1, e2⟩ := ih n.toNat n.toNat_lt
      rw [runCalls, Spec.wrapRun, XMSSBasic.call, basic_setIndex_rs _ o0 i n.toNat n.toNat_lt]
      simp only
      rw [show ({ basicAt (keyP S o0.hashFunction w (Spec.rustLen w) o0.height.toNat (rustLen_pos hw) seed) o0 i with
        toXMSSBase := (basicAt (keyP S o0.hashFunction w (Spec.rustLen w) o0.height.toNat (rustLen_pos hw) seed) o0 n.toNat).toXMSSBase } :
        XMSSBasic) = basicAt (keyP S o0.hashFunction w (Spec.rustLen w) o0.height.toNat (rustLen_pos hw) seed) o0 n.toNat from rfl, e1]
      constructor
      · cases Spec.wrapRun (Spec.wrapSignature S o0.hashFunction w o0.height.toNat seed) n.toNat cs <;> rfl
      · intro x hx
        obtain ⟨y, hy, rfl⟩ := Option.map_eq_some_iff.mp hx
        exact e2 y hy
    | sign m =>
      obtain ⟨e1, e2⟩ := ih ((i + 1) % 2 ^ 32) (Nat.mod_lt _ (by omega))
      rw [runCalls, Spec.wrapRun, XMSSBasic.call, basic_sign_release seed hw o0 hop hh i hi m]
      cases hs : Spec.wrapSignature S o0.hashFunction w o0.height.toNat seed i m with
      | none => exact ⟨rfl, fun x h => by cases h⟩
      | some s =>
        dsimp only
        constructor
        · rw [e1]
          cases Spec.wrapRun (Spec.wrapSignature S o0.hashFunction w o0.height.toNat seed) ((i + 1) % 2 ^ 32) cs <;> rfl
        · intro x hx
          obtain ⟨y, hy, rfl⟩ := Option.map_eq_some_iff.mp hx
          exact e2 y hy

end Qrl.Rs
