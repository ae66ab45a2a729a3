import Verif.Proof.RustFast
import Verif.Proof.BasicApi
/-!
# The Rust `XMSSBasic`, by simulation of the C++ one
-/

namespace Qrl.Rs

open Res

variable {S : Sha256}

theorem u32_debug {x : Nat} (h : 2 ^ 32 ≤ x) : u32 .debug x = panic := by rw [u32.eq_def, if_neg (by omega)]

theorem rdNode_none {l : List Cell} {i : Nat} (h : l.length ≤ i) : rdNode l i = panic := by
  rw [rdNode, List.getElem?_eq_none h]

theorem bind_noErr {α β : Type} {x : Res α} {f : α → Res β} (hx : ∀ e, x ≠ err e) (hf : ∀ a e, f a ≠ err e) (e : Err) :
    (x >>= f) ≠ err e := by
  cases x with
  | ok a => rw [ok_bind]; exact hf a e
  | err e' => exact absurd rfl (hx e')
  | panic => intro h; cases h

theorem u32_noErr (b : Build) (x : Nat) (e : Err) : u32 b x ≠ err e := by
  rw [u32.eq_def]; split
  · intro h; cases h
  · cases b <;> (intro h; cases h)

theorem shr_noErr (b : Build) (x y : Nat) (e : Err) : shr b x y ≠ err e := by
  rw [shr.eq_def]; split
  · intro h; cases h
  · cases b <;> (intro h; cases h)

theorem rdNode_noErr (l : List Cell) (i : Nat) (e : Err) : rdNode l i ≠ err e := by
  rw [rdNode.eq_def]; split <;> (intro h; cases h)

/-- The tree slots that the authentication path of leaf `idx` is read from; the path is read in full only if all of them are in
the tree. -/
theorem authCopy_slots (b : Build) (tree : List Cell) (num idx : Nat) : ∀ (m i : Nat) (path : List Bytes),
    authCopy b tree num idx m i = ok path → ∀ l, i ≤ l → l < i + m → num >>> l < 2 ^ 26 → (idx >>> l) ^^^ 1 < 2 ^ 26 → l < 32 →
      num >>> l + ((idx >>> l) ^^^ 1) < tree.length := by
  intro m
  induction m with
  | zero => intro i path _ l h1 h2; omega
  | succ m ih =>
    intro i path h l h1 h2 h3 h4 h5
    rw [authCopy] at h
    obtain ⟨s, hs, h⟩ := bind_eq_ok.mp h
    obtain ⟨x, hx, h⟩ := bind_eq_ok.mp h
    obtain ⟨y, hy, h⟩ := bind_eq_ok.mp h
    obtain ⟨st, hst, h⟩ := bind_eq_ok.mp h
    obtain ⟨c, hc, h⟩ := bind_eq_ok.mp h
    obtain ⟨cs, hcs, -⟩ := bind_eq_ok.mp h
    by_cases hl : l = i
    · subst hl
      rw [Nat.mod_eq_of_lt (show l < 64 by omega)] at hy
      rw [shr_lt b h5] at hs
      cases hs
      rw [Nat.mod_eq_of_lt (by omega)] at hy
      rw [u32_lt b (by omega)] at hx hy
      cases hx
      cases hy
      rw [u32_lt b (by omega)] at hst
      cases hst
      rw [show (num >>> l * 32 + (idx >>> l ^^^ 1) * 32) / 32 = num >>> l + (idx >>> l ^^^ 1) by omega] at hc
      by_cases hlt : num >>> l + ((idx >>> l) ^^^ 1) < tree.length
      · exact hlt
      · rw [rdNode_none (by omega)] at hc
        cases hc
    · exact ih (i + 1) cs hcs l (by omega) (by omega) h3 h4 h5

theorem authCopy_noErr (b : Build) (tree : List Cell) (num idx : Nat) : ∀ m i e, authCopy b tree num idx m i ≠ err e := by
  intro m
  induction m with
  | zero => intro i e h; cases h
  | succ m ih =>
    intro i
    rw [authCopy]
    exact bind_noErr (shr_noErr _ _ _) fun s => bind_noErr (u32_noErr _ _) fun x => bind_noErr (u32_noErr _ _) fun y =>
      bind_noErr (u32_noErr _ _) fun st => bind_noErr (rdNode_noErr _ _) fun c => bind_noErr (ih (i + 1)) fun cs e h => by cases h

/-- Beyond the last index the authentication path is out of range: always in a build with overflow checks; without them the
offsets wrap around, and this holds for indices below `2^(25 + height)` only (all, from height 7 on). -/
theorem computeAuthpath_oob_rs (b : Build) (hf : HashFn) (p : XmssParams) (sk ps : Bytes) (hs : sk.length = 32)
    (hps : ps.length = 32) (h1 : 1 ≤ p.wots.len) (h0 : 1 ≤ p.h) (hh : p.h ≤ 24) (idx : Nat) (hidx : 2 ^ p.h ≤ idx)
    (h32 : idx < 2 ^ 32) (hb : b = .debug ∨ idx < 2 ^ (25 + p.h)) (a b' c d e : Nat) :
    computeAuthpathWots b S hf idx sk p ps ⟨0, 0, 0, a, b', c, d, e⟩ = panic := by
  have hpw : 2 ^ p.h ≤ 2 ^ 24 := Nat.pow_le_pow_right (by omega) hh
  have hsz : (2 * 2 ^ p.h * 32) / 32 = 2 * 2 ^ p.h := by omega
  unfold computeAuthpathWots
  dsimp only
  rw [shl1_lt b (by omega), ok_bind, u32_lt b (by omega), ok_bind, u32_lt b (by omega), ok_bind, hsz]
  obtain ⟨t1, e1, e2, e3⟩ := authLeaves_eq S hf p sk ps h1 (2 ^ p.h) 0 (List.replicate (2 * 2 ^ p.h) none)
    0 0 0 0 0 0 0 0 (by omega) (by simp) (by intro j hj; omega)
  have r1 := authLeaves_sim S hf b sk p ps (by omega) (by omega) (by omega) (2 ^ p.h) 0 (List.replicate (2 * 2 ^ p.h) none)
    ⟨0, 0, 0, 1, 0, 0, 0, 0⟩ ⟨0, 0, 0, 0, 0, 0, 0, 0⟩ (by omega)
  rw [take32_of hs, take32_of hps] at r1
  rw [show derive ⟨0, 0, 0, a, b', c, d, e⟩ 1 = ⟨0, 0, 0, 1, 0, 0, 0, 0⟩ from rfl,
    show derive ⟨0, 0, 0, a, b', c, d, e⟩ 0 = ⟨0, 0, 0, 0, 0, 0, 0, 0⟩ from rfl,
    show derive ⟨0, 0, 0, a, b', c, d, e⟩ 2 = ⟨0, 0, 0, 2, 0, 0, 0, 0⟩ from rfl]
  rw [r1 _ e1, ok_bind]
  obtain ⟨t2, e4, e5, e6⟩ := authLevels_len S hf p.wots.w p.wots.len sk ps p.h p.h 0 t1 0 0 0 (by omega) e2 (by
    intro l' hl' j hj
    obtain rfl : l' = 0 := by omega
    exact e3 j (by simpa using hj))
  have r2 := authLevels_sim S hf ps (by omega) (2 ^ p.h) 0 t1 ⟨0, 0, 0, 2, 0, 0, 0, 0⟩
  rw [take32_of hps] at r2
  rw [r2 _ e4, ok_bind]
  obtain ⟨m, hm⟩ : ∃ m, p.h = m + 1 := ⟨p.h - 1, by omega⟩
  have hc : authCopy b t2 (2 ^ p.h) idx p.h 0 = panic := by
    cases hcase : authCopy b t2 (2 ^ p.h) idx p.h 0 with
    | panic => rfl
    | err e => exact absurd hcase (authCopy_noErr _ _ _ _ _ _ _)
    | ok path =>
      exfalso
      have hshr : ∀ l, 2 ^ p.h >>> l ≤ 2 ^ p.h := fun l => Nat.shiftRight_le _ _
      have hslots := authCopy_slots b t2 (2 ^ p.h) idx p.h 0 path hcase
      by_cases h26 : idx < 2 ^ 26
      · have hge : 2 ^ p.h ≤ idx ^^^ 1 ∧ idx ^^^ 1 < 2 ^ 26 := by
          rw [xor_one, Spec.sibling]
          split
          · omega
          · have : 2 ^ p.h % 2 = 0 := by rw [hm, Nat.pow_succ]; omega
            omega
        have := hslots 0 (by omega) (by omega) (by rw [Nat.shiftRight_zero]; omega) (by rw [Nat.shiftRight_zero]; omega) (by omega)
        rw [Nat.shiftRight_zero, Nat.shiftRight_zero] at this
        omega
      · by_cases hd : b = .debug
        · subst hd
          -- the very first offset overflows or is out of the tree
          rw [hm, authCopy, shr_lt .debug (by omega), ok_bind, Nat.shiftRight_zero, Nat.shiftRight_zero, ← hm, u32_lt .debug (by omega),
            ok_bind] at hcase
          have hx : 2 ^ 26 ≤ idx ^^^ 1 ∧ idx ^^^ 1 < 2 ^ 32 := by
            rw [xor_one, Spec.sibling]
            split <;> omega
          rw [Nat.mod_eq_of_lt hx.2] at hcase
          generalize idx ^^^ 1 = y at *
          by_cases hy : y < 2 ^ 27
          · rw [u32_lt .debug (by omega), ok_bind] at hcase
            by_cases hz : 2 ^ p.h * 32 + y * 32 < 2 ^ 32
            · rw [u32_lt .debug hz, ok_bind, rdNode_none (by omega)] at hcase; cases hcase
            · rw [u32_debug (by omega)] at hcase; cases hcase
          · rw [u32_debug (by omega)] at hcase; cases hcase
        · have hlt : idx < 2 ^ (25 + p.h) := by rcases hb with h | h; exact absurd h hd; exact h
          -- the level at which the index has 26 bits
          obtain ⟨l, hl1, hl2, hl3⟩ : ∃ l, 2 ^ 25 ≤ idx >>> l ∧ idx >>> l < 2 ^ 26 ∧ l < p.h ∧ l < 32 := by
            have hne : idx ≠ 0 := by omega
            have hlog1 : 26 ≤ Nat.log2 idx := by
              rw [Nat.le_log2 hne]; omega
            have hlog2 : Nat.log2 idx < 25 + p.h := (Nat.log2_lt hne).mpr hlt
            have hlog3 : Nat.log2 idx < 32 := (Nat.log2_lt hne).mpr h32
            have hle := Nat.log2_self_le hne
            have hlt' : idx < 2 ^ (Nat.log2 idx + 1) := Nat.lt_log2_self
            refine ⟨Nat.log2 idx - 25, ?_, ?_, by omega, by omega⟩
            · rw [Nat.shiftRight_eq_div_pow, Nat.le_div_iff_mul_le (Nat.two_pow_pos _), ← Nat.pow_add,
                show 25 + (Nat.log2 idx - 25) = Nat.log2 idx by omega]
              exact hle
            · rw [Nat.shiftRight_eq_div_pow, Nat.div_lt_iff_lt_mul (Nat.two_pow_pos _), ← Nat.pow_add,
                show 26 + (Nat.log2 idx - 25) = Nat.log2 idx + 1 by omega]
              exact hlt'
          have hx : 2 ^ 25 ≤ (idx >>> l) ^^^ 1 ∧ (idx >>> l) ^^^ 1 < 2 ^ 26 := by
            rw [xor_one, Spec.sibling]
            split <;> omega
          have := hslots l (by omega) (by omega) (by have := hshr l; omega) hx.2 hl3.2
          have h0 : 0 < 2 ^ p.h >>> l := by
            rw [Nat.shiftRight_eq_div_pow]
            exact Nat.div_pos (Nat.pow_le_pow_right (by omega) (by omega)) (Nat.two_pow_pos _)
          omega
  rw [hc]; rfl

/-- Trees of height 26 to 30 have no room in a 32-bit buffer size. -/
theorem computeAuthpath_tall_rs (b : Build) (hf : HashFn) (p : XmssParams) (sk ps : Bytes) (hs : sk.length = 32)
    (hps : ps.length = 32) (h1 : 1 ≤ p.wots.len) (h26 : 26 ≤ p.h) (hh : p.h ≤ 30) (idx : Nat) (a b' c d e : Nat) :
    computeAuthpathWots b S hf idx sk p ps ⟨0, 0, 0, a, b', c, d, e⟩ = panic := by
  obtain ⟨r, hr⟩ : ∃ r, p.h = 26 + r := ⟨p.h - 26, by omega⟩
  have hpw : 2 ^ p.h ≤ 2 ^ 30 := Nat.pow_le_pow_right (by omega) hh
  have hpos : 0 < 2 ^ r := Nat.two_pow_pos _
  have he : 2 ^ p.h = 2 ^ 26 * 2 ^ r := by rw [hr, Nat.pow_add]
  unfold computeAuthpathWots
  dsimp only
  rw [shl1_lt b (by omega), ok_bind, u32_lt b (by omega), ok_bind]
  cases b with
  | debug => rw [u32_debug (by omega)]; rfl
  | release =>
    rw [u32.eq_def, if_neg (by omega)]
    simp only [ok_bind]
    rw [show 2 * 2 ^ p.h * 32 % 2 ^ 32 / 32 = 0 by omega]
    rw [show derive ⟨0, 0, 0, a, b', c, d, e⟩ 1 = ⟨0, 0, 0, 1, 0, 0, 0, 0⟩ from rfl,
      show derive ⟨0, 0, 0, a, b', c, d, e⟩ 0 = ⟨0, 0, 0, 0, 0, 0, 0, 0⟩ from rfl]
    have : ∀ m, authLeaves .release S hf sk p ps (2 ^ p.h) (m + 1) 0 (List.replicate 0 none) ⟨0, 0, 0, 1, 0, 0, 0, 0⟩
        ⟨0, 0, 0, 0, 0, 0, 0, 0⟩ = panic := by
      intro m
      obtain ⟨x1, x2, x3, y1, y2, y3, hg⟩ := genLeafWots_eq S hf sk p ps h1 0 0 0 0 0 0 0
      have hg2 := genLeafWots_sim S hf sk p ps ⟨0, 0, 0, 1, 0, 0, 0, 0⟩ ⟨0, 0, 0, 0, 0, 0, 0, 0⟩ (by omega) (by omega)
      rw [take32_of hs, take32_of hps] at hg2
      rw [authLeaves]
      dsimp only
      rw [u32.eq_def]
      have hu : ∀ x, ∃ y, u32 .release x = ok y := by
        intro x; rw [u32.eq_def]; split
        · exact ⟨_, rfl⟩
        · exact ⟨_, rfl⟩
      obtain ⟨y1, e1⟩ := hu (2 ^ p.h * 32)
      rw [u32.eq_def] at e1
      rw [e1, ok_bind]
      obtain ⟨y2, e2⟩ := hu (0 * 32)
      rw [e2, ok_bind]
      obtain ⟨y3, e3⟩ := hu (y1 + y2)
      rw [e3, ok_bind]
      rw [show setLtree ⟨0, 0, 0, 1, 0, 0, 0, 0⟩ 0 = ⟨0, 0, 0, 1, 0, 0, 0, 0⟩ from rfl,
        show setOTS ⟨0, 0, 0, 0, 0, 0, 0, 0⟩ 0 = ⟨0, 0, 0, 0, 0, 0, 0, 0⟩ from rfl, hg2 _ hg]
      rfl
    obtain ⟨m, hm⟩ : ∃ m, 2 ^ p.h = m + 1 := ⟨2 ^ p.h - 1, by omega⟩
    have t := this m
    rw [← hm] at t
    rw [t]; rfl

/-- Beyond its last index, or with a tree of height 26 to 30, `sign` panics. -/
theorem signMsg_panic_rs (b : Build) (hf : HashFn) {w : Nat} {p : WotsParams} {k q : Nat} (hp : SpecParams w p k q) (h : Nat)
    (K : KeyParts) (idx : Nat) (h32 : idx < 2 ^ 32) (m : Bytes)
    (hpath : ∀ b' c' d', computeAuthpathWots b S hf idx K.skSeed ⟨p, h⟩ K.ps ⟨0, 0, 0, 0, idx, b', c', d'⟩ = panic) :
    xmssSignMsg b S hf ⟨p, h⟩ (K.sk idx) m = panic := by
  have s0 := be32At_sim _ _ (K.idx idx h32)
  have s1 := sim_slice _ _ _ _ (K.seed_slice idx)
  have s2 := sim_slice _ _ _ _ (K.prf_slice idx)
  have s3 := sim_slice _ _ _ _ (K.ps_slice idx)
  rw [xmssSignMsg]
  simp only [s0, s1, s2, s3, ok_bind]
  cases hn : u32 b (idx + 1) with
  | panic => rfl
  | err e =>
    rw [u32.eq_def] at hn
    split at hn
    · cases hn
    · cases b <;> cases hn
  | ok next =>
    have s4 := sim_slice _ _ _ _ (K.root_slice next)
    simp only [ok_bind, toByte_rs]
    rw [prf_rs S _ _ K.skPrf (length_toByte _ _) (by rw [K.l2]), take32_of K.l2]
    simp only [ok_bind]
    rw [show idxBytes next ++ (K.sk idx).drop 4 = K.sk next from K.reindex idx next, s4]
    simp only [ok_bind, prf_eq, toByte_eq_be]
    rw [hMsg_rs _ _ _ (length_signKey _ K idx)]
    cases Spec.rustSigned hf (Spec.PRF (hf.prim S) K.skPrf (Spec.be 32 idx) ++ K.root ++ Spec.be 32 idx) m with
    | none => rfl
    | some m' =>
      simp only [ok_bind, hMsg_eq]
      rw [signDigest]
      dsimp only
      rw [getSeed_rs S _ _ _ (by rw [K.l1]), take32_of K.l1,
        show setOTS (setType {} 0) idx = ⟨0, 0, 0, 0, idx, 0, 0, 0⟩ from rfl, getSeed_eq]
      simp only [ok_bind]
      obtain ⟨b', c', d', e⟩ := wotsSign_spec S hf hp (Spec.Hmsg (hf.prim S)
          (Spec.PRF (hf.prim S) K.skPrf (Spec.be 32 idx) ++ K.root ++ Spec.be 32 idx) m') K.skSeed K.ps idx 0 0 0
        (length_Hmsg ..)
      have ws := wotsSign_sim S hf b p hp.good.one_le (Spec.Hmsg (hf.prim S)
          (Spec.PRF (hf.prim S) K.skPrf (Spec.be 32 idx) ++ K.root ++ Spec.be 32 idx) m')
          (Spec.PRF (hf.prim S) K.skSeed (Spec.address 0 idx 0 0 0)) K.ps ⟨0, 0, 0, 0, idx, 0, 0, 0⟩
          (by rw [length_PRF]) (by rw [K.l3])
      rw [take32_of (length_PRF ..), take32_of K.l3] at ws
      rw [ws _ e]
      simp only [ok_bind, hpath]
      rfl

/-- The object at index `i`. -/
def basicAt (K : KeyParts) (o0 : XMSSBasic) (i : Nat) : XMSSBasic := { o0 with sk := K.sk i }

theorem basic_setIndex_rs (K : KeyParts) (o0 : XMSSBasic) (i n : Nat) (hn : n < 2 ^ 32) :
    (basicAt K o0 i).setIndex n = ok (n, (basicAt K o0 n).toXMSSBase) := by
  have hc := baseSetIndex_eq K ((basicAt K o0 i).cpp o0.params) i n rfl hn
  have hd := K.reindex i n
  have hl := K.length_sk i
  have hg := getIndex_sim (basicAt K o0 n).toXMSSBase o0.params n (K.getIndex _ n rfl hn)
  match hsk : K.sk i, hl with
  | a :: b :: c :: d :: rest, _ =>
    rw [hsk] at hd
    have e : K.sk n = UInt8.ofNat (n >>> 8 >>> 8 >>> 8) :: UInt8.ofNat (n >>> 8 >>> 8) :: UInt8.ofNat (n >>> 8) ::
        UInt8.ofNat n :: rest := by
      rw [← hd]
      simp only [Qrl.idxBytes, ← Nat.shiftRight_add]
      rfl
    have hb : ∀ x : Nat, UInt8.ofNat (x &&& 0xFF) = UInt8.ofNat x := by
      intro x
      apply UInt8.toNat_inj.mp
      have := Nat.and_two_pow_sub_one_eq_mod x 8
      simp only [Nat.reducePow, Nat.add_one_sub_one] at this
      simp [this]
    rw [XMSSBase.setIndex]
    simp only [basicAt, hsk, wr, List.length_cons, hb]
    rw [if_pos (by omega)]
    simp only [ok_bind, List.set_cons_succ, List.set_cons_zero, List.length_cons]
    rw [if_pos (by omega)]
    simp only [ok_bind, List.set_cons_succ, List.set_cons_zero, List.length_cons]
    rw [if_pos (by omega)]
    simp only [ok_bind, List.set_cons_succ, List.set_cons_zero, List.length_cons]
    rw [if_pos (by omega)]
    simp only [ok_bind, List.set_cons_succ, List.set_cons_zero, List.length_cons]
    rw [← e]
    rw [show XMSSBase.getIndex { hashFunction := o0.hashFunction, height := o0.height, sk := K.sk n, seed := o0.seed } = ok n from hg]
    rfl

theorem basic_sign_rs (b : Build) {w : Nat} (hw : w = 2 ∨ w = 4 ∨ w = 16 ∨ w = 256)
    {k q : Nat} (hp : SpecParams w (wotsParams w) k q) (hlen : 1 ≤ (wotsParams w).len) (o0 : XMSSBasic)
    (hop : o0.params = ⟨wotsParams w, o0.height.toNat⟩) (hh : o0.height.toNat ≤ 25) (K : KeyParts)
    (hroot : K.root = Spec.node (o0.hashFunction.prim S) w (Spec.lenW w) K.skSeed K.ps o0.height.toNat 0)
    (i : Nat) (hi : i < 2 ^ o0.height.toNat) (m m' : Bytes)
    (hm : Spec.rustSigned o0.hashFunction (Spec.PRF (o0.hashFunction.prim S) K.skPrf (Spec.be 32 i) ++ K.root ++ Spec.be 32 i) m = some m') :
    (basicAt K o0 i).sign b S m =
      ok (Spec.signature (o0.hashFunction.prim S) w o0.height.toNat K.skSeed K.skPrf K.ps i m', basicAt K o0 (i + 1)) := by
  have hpw : 2 ^ o0.height.toNat ≤ 2 ^ 25 := Nat.pow_le_pow_right (by omega) hh
  have hc := xmssSignmsg_eq S o0.hashFunction (p := ⟨wotsParams w, o0.height.toNat⟩) hp hlen hh K i hi hroot m'
  obtain ⟨hml, hsn⟩ := rustSigned_seen hm
  have hs := signMsg_sim S o0.hashFunction b ⟨wotsParams w, o0.height.toNat⟩ hp.good.one_le (K.sk i) m m' (Nat.lt_succ_of_le hh) hml (by
    intro idx hidx
    rw [K.idx i (by omega)] at hidx
    cases hidx
    refine ⟨by omega, ?_⟩
    rw [signKey, ← (slice_val (K.prf_slice i)).1, ← (slice_val (K.root_slice i)).1, prf_eq, toByte_eq_be]
    exact hsn)
  rw [XMSSBasic.sign]
  simp only [basicAt, hop]
  rw [hs _ hc]
  simp only [ok_bind]
  rw [fillBuffer_exact]
  · rfl
  · show _ = 4 + 32 + (wotsParams (wotsParams w).w).keysize + o0.height.toNat * 32
    rw [hp.pw, keysize_eq hw, length_signature S _ hp hlen, hp.len]
    omega

theorem basic_sign_panic_rs (b : Build) {w : Nat} {k q : Nat} (hp : SpecParams w (wotsParams w) k q) (o0 : XMSSBasic)
    (hop : o0.params = ⟨wotsParams w, o0.height.toNat⟩) (K : KeyParts) (i : Nat) (h32 : i < 2 ^ 32) (m : Bytes)
    (hpath : ∀ b' c' d', computeAuthpathWots b S o0.hashFunction i K.skSeed ⟨wotsParams w, o0.height.toNat⟩ K.ps
      ⟨0, 0, 0, 0, i, b', c', d'⟩ = panic) :
    (basicAt K o0 i).sign b S m = panic := by
  rw [XMSSBasic.sign]
  simp only [basicAt, hop]
  rw [signMsg_panic_rs b o0.hashFunction hp o0.height.toNat K i h32 m hpath]
  rfl

theorem basic_sign_none_rs (b : Build) (o0 : XMSSBasic) (K : KeyParts) (i : Nat) (h32 : i + 1 < 2 ^ 32) (m : Bytes)
    (hm : Spec.rustSigned o0.hashFunction (Spec.PRF (o0.hashFunction.prim S) K.skPrf (Spec.be 32 i) ++ K.root ++ Spec.be 32 i) m = none) :
    (basicAt K o0 i).sign b S m = panic := by
  have s0 := be32At_sim _ _ (K.idx i (by omega))
  have s1 := sim_slice _ _ _ _ (K.seed_slice i)
  have s2 := sim_slice _ _ _ _ (K.prf_slice i)
  have s3 := sim_slice _ _ _ _ (K.ps_slice i)
  have s4 := sim_slice _ _ _ _ (K.root_slice (i + 1))
  rw [XMSSBasic.sign]
  simp only [basicAt]
  rw [xmssSignMsg]
  simp only [s0, s1, s2, s3, ok_bind, u32_lt b h32, toByte_rs]
  rw [prf_rs S _ _ K.skPrf (length_toByte _ _) (by rw [K.l2]), take32_of K.l2]
  simp only [ok_bind, prf_eq, toByte_eq_be]
  rw [show idxBytes (i + 1) ++ (K.sk i).drop 4 = K.sk (i + 1) from K.reindex i (i + 1), s4]
  simp only [ok_bind]
  rw [hMsg_rs _ _ _ (length_signKey _ K i), hm]
  rfl

theorem specParams_rs {w : Nat} (hw : w = 2 ∨ w = 4 ∨ w = 16 ∨ w = 256) :
    ∃ k q, SpecParams w (wotsParams w) k q ∧ 1 ≤ (wotsParams w).len := by
  obtain ⟨p, k, q, hp, hsp, h1, -⟩ := Props.base_ok hw
  rw [wotsParams_eq hw] at hp
  cases hp
  exact ⟨k, q, hsp, h1⟩

theorem basic_new_rs (b : Build) (seed : Bytes) (height : UInt8) (hf : HashFn) {w : Nat}
    (hw : w = 2 ∨ w = 4 ∨ w = 16 ∨ w = 256) (hs : seed.length = 48) (hh : GoodHeight height) :
    XMSSBasic.new b S seed height hf w =
      ok { hashFunction := hf, height := height, sk := (keyOf S hf w height.toNat (lenW_pos hw) seed).sk 0, seed := seed
           params := ⟨wotsParams w, height.toNat⟩ } := by
  obtain ⟨p, k, q, hp, h1, h2, e⟩ := basicNew_eq S seed height hf 0 w hw hs hh
  obtain ⟨h4, h30, he⟩ := hh
  have hc : ¬ (2 ≥ height.toNat ∨ (height.toNat - 2) % 2 ≠ 0) := by omega
  simp only [Qrl.XmssBasic.new, baseCtorCheck, hs, ne_eq, not_true, if_false, show ¬ height.toNat > 254 by omega,
    Outcome.ok_bind] at e
  rw [if_neg hc, xmssSetParams, if_neg hc, wotsParams_eq hw, Outcome.ok_bind, Outcome.ok_bind, withHash, ofNat?_toNat] at e
  dsimp only at e
  rw [Outcome.bind_eq_ok] at e
  obtain ⟨sk, hsk, e⟩ := e
  simp only [Outcome.ok.injEq, XmssBase.mk.injEq] at e
  rw [XMSSBasic.new, if_neg (by omega), if_neg hc, xmssParams, if_neg hc, ok_bind, genKeypair_sim S hf b _ seed hs _ hsk,
    ok_bind, XMSSBase.new, if_neg (by omega), if_neg (by omega), ok_bind, e.2.2.2.2.1]

theorem basic_run_rs (b : Build) {w : Nat} (hw : w = 2 ∨ w = 4 ∨ w = 16 ∨ w = 256) (o0 : XMSSBasic)
    (hop : o0.params = ⟨wotsParams w, o0.height.toNat⟩) (hh1 : 1 ≤ o0.height.toNat) (hh : o0.height.toNat ≤ 24) (K : KeyParts)
    (hroot : K.root = Spec.node (o0.hashFunction.prim S) w (Spec.lenW w) K.skSeed K.ps o0.height.toNat 0)
    (cs : List Call) : ∀ i, i < 2 ^ 32 → (b = .debug ∨ i < 2 ^ (25 + o0.height.toNat) ∧ ∀ n, Call.setIndex n ∈ cs → n.toNat < 2 ^ (25 + o0.height.toNat)) →
    runCalls (XMSSBasic.call b S) (basicAt K o0 i) cs =
      (Spec.partialLoose (2 ^ o0.height.toNat) (rustSig S o0.hashFunction w o0.height.toNat K) i cs).map
        fun x => (x.1, basicAt K o0 x.2) := by
  obtain ⟨k, q, hsp, h1⟩ := specParams_rs hw
  have hpw : 2 ^ o0.height.toNat ≤ 2 ^ 24 := Nat.pow_le_pow_right (by omega) hh
  have hbig : 2 ^ (25 + o0.height.toNat) = 2 ^ 25 * 2 ^ o0.height.toNat := Nat.pow_add ..
  induction cs with
  | nil => intro i _ _; rfl
  | cons c cs ih =>
    intro i hi hb
    cases c with
    | setIndex n =>
      have hb' : b = .debug ∨ n.toNat < 2 ^ (25 + o0.height.toNat) ∧ ∀ n, Call.setIndex n ∈ cs → n.toNat < 2 ^ (25 + o0.height.toNat) := by
        rcases hb with h | ⟨_, h⟩
        · exact Or.inl h
        · exact Or.inr ⟨h n List.mem_cons_self, fun n hn => h n (List.mem_cons_of_mem _ hn)⟩
      rw [runCalls, Spec.partialLoose, XMSSBasic.call, basic_setIndex_rs K o0 i n.toNat n.toNat_lt]
      simp only
      rw [show ({ basicAt K o0 i with toXMSSBase := (basicAt K o0 n.toNat).toXMSSBase } : XMSSBasic) = basicAt K o0 n.toNat from rfl,
        ih n.toNat n.toNat_lt hb']
      cases Spec.partialLoose (2 ^ o0.height.toNat) (rustSig S o0.hashFunction w o0.height.toNat K) n.toNat cs <;> rfl
    | sign m =>
      rw [runCalls, Spec.partialLoose, XMSSBasic.call]
      by_cases hc : i < 2 ^ o0.height.toNat
      · have hb' : b = .debug ∨ i + 1 < 2 ^ (25 + o0.height.toNat) ∧ ∀ n, Call.setIndex n ∈ cs → n.toNat < 2 ^ (25 + o0.height.toNat) := by
          rcases hb with h | ⟨_, h⟩
          · exact Or.inl h
          · exact Or.inr ⟨by omega, fun n hn => h n (List.mem_cons_of_mem _ hn)⟩
        rw [if_pos hc]
        cases hm : Spec.rustSigned o0.hashFunction
            (Spec.PRF (o0.hashFunction.prim S) K.skPrf (Spec.be 32 i) ++ K.root ++ Spec.be 32 i) m with
        | none =>
          have hσ : rustSig S o0.hashFunction w o0.height.toNat K i m = none := by rw [rustSig, hm]; rfl
          rw [basic_sign_none_rs b o0 K i (by omega) m hm, hσ]
          rfl
        | some m' =>
          have hσ : rustSig S o0.hashFunction w o0.height.toNat K i m =
              some (Spec.signature (o0.hashFunction.prim S) w o0.height.toNat K.skSeed K.skPrf K.ps i m') := by
            rw [rustSig, hm]; rfl
          rw [basic_sign_rs b hw hsp h1 o0 hop (by omega) K hroot i hc m m' hm, hσ]
          simp only
          rw [ih (i + 1) (by omega) hb']
          cases Spec.partialLoose (2 ^ o0.height.toNat) (rustSig S o0.hashFunction w o0.height.toNat K) (i + 1) cs <;> rfl
      · rw [if_neg hc, basic_sign_panic_rs b hsp o0 hop K i hi m (fun b' c' d' =>
          computeAuthpath_oob_rs b o0.hashFunction ⟨wotsParams w, o0.height.toNat⟩ K.skSeed K.ps K.l1 K.l3 h1 hh1 hh i (by simpa using hc) hi
            (by rcases hb with h | ⟨h, _⟩
                · exact Or.inl h
                · exact Or.inr h) _ _ _ _ _)]
        rfl

end Qrl.Rs
