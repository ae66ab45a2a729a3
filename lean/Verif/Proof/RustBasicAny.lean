import Verif.Proof.RustBasicApi
import Verif.Proof.RustFastAny
/-!
# The Rust `XMSSBasic` with any Winternitz parameter
-/

namespace Qrl.Rs

open Res

variable {S : Sha256}

/-- `xmss_sign_msg` for any parameter, up to the authentication path, whatever the next index is. -/
theorem signMsg_next (b : Build) (hf : HashFn) {w : Nat} (hw : Spec.RangeW w) (h : Nat) (K : KeyParts) (idx : Nat)
    (h32 : idx < 2 ^ 32) (next : Nat) (hnext : u32 b (idx + 1) = ok next) (root' : Bytes) (path : List Bytes) (m : Bytes)
    (hpath : ∀ b' c' d', computeAuthpathWots b S hf idx K.skSeed ⟨wotsParams w, h⟩ K.ps ⟨0, 0, 0, 0, idx, b', c', d'⟩ =
      ok (root', path)) :
    xmssSignMsg b S hf ⟨wotsParams w, h⟩ (K.sk idx) m =
      match Spec.rustSigned hf (Spec.PRF (hf.prim S) K.skPrf (Spec.be 32 idx) ++ K.root ++ Spec.be 32 idx) m with
      | none => panic
      | some m' =>
        match Spec.rustPositions b w (Spec.digest (hf.prim S) (Spec.PRF (hf.prim S) K.skPrf (Spec.be 32 idx)) K.root idx m') with
        | none => panic
        | some ds => ok (K.sk next, Spec.be 4 idx ++ Spec.PRF (hf.prim S) K.skPrf (Spec.be 32 idx) ++
            (Spec.wotsSig (hf.prim S) K.skSeed K.ps idx ds).flatten ++ path.flatten) := by
  have s0 := be32At_sim _ _ (K.idx idx (by omega))
  have s1 := sim_slice _ _ _ _ (K.seed_slice idx)
  have s2 := sim_slice _ _ _ _ (K.prf_slice idx)
  have s3 := sim_slice _ _ _ _ (K.ps_slice idx)
  have s4 := sim_slice _ _ _ _ (K.root_slice next)
  rw [xmssSignMsg]
  simp only [s0, s1, s2, s3, ok_bind, hnext, toByte_rs]
  rw [prf_rs S _ _ K.skPrf (length_toByte _ _) (by rw [K.l2]), take32_of K.l2]
  simp only [ok_bind, prf_eq, toByte_eq_be]
  rw [show idxBytes next ++ (K.sk idx).drop 4 = K.sk next from K.reindex idx next, s4]
  simp only [ok_bind]
  rw [hMsg_rs _ _ _ (length_signKey _ K idx)]
  cases Spec.rustSigned hf (Spec.PRF (hf.prim S) K.skPrf (Spec.be 32 idx) ++ K.root ++ Spec.be 32 idx) m with
  | none => rfl
  | some m' =>
    dsimp only
    rw [ok_bind, hMsg_eq]
    have hd : (Spec.digest (hf.prim S) (Spec.PRF (hf.prim S) K.skPrf (Spec.be 32 idx)) K.root idx m').length = 32 := by
      rw [Spec.digest]; exact length_Hmsg ..
    rw [show Spec.Hmsg (hf.prim S) (Spec.PRF (hf.prim S) K.skPrf (Spec.be 32 idx) ++ K.root ++ Spec.be 32 idx) m' =
      Spec.digest (hf.prim S) (Spec.PRF (hf.prim S) K.skPrf (Spec.be 32 idx)) K.root idx m' from rfl]
    rw [signDigest]
    dsimp only
    rw [getSeed_rs S _ _ _ (by rw [K.l1]), take32_of K.l1,
      show setOTS (setType {} 0) idx = ⟨0, 0, 0, 0, idx, 0, 0, 0⟩ from rfl, getSeed_eq]
    simp only [ok_bind]
    cases hp : Spec.rustPositions b w (Spec.digest (hf.prim S) (Spec.PRF (hf.prim S) K.skPrf (Spec.be 32 idx)) K.root idx m') with
    | none =>
      rw [wotsSign, signDigits_none hw hd hp]
      rfl
    | some ds =>
      dsimp only
      obtain ⟨x', y', z', e⟩ := wotsSign_rsAny (S := S) hf hw hd hp K.skSeed K.ps K.l3 idx 0 0 0
      rw [e]
      simp only [ok_bind, hpath]
      rw [show idxBytes idx = Spec.be 4 idx from idxBytes_eq idx]

/-- `xmss_sign_msg` for any parameter, up to the authentication path. -/
theorem signMsg_rsAny (b : Build) (hf : HashFn) {w : Nat} (hw : Spec.RangeW w) (h : Nat) (K : KeyParts) (idx : Nat)
    (h32 : idx + 1 < 2 ^ 32) (root' : Bytes) (path : List Bytes) (m : Bytes)
    (hpath : ∀ b' c' d', computeAuthpathWots b S hf idx K.skSeed ⟨wotsParams w, h⟩ K.ps ⟨0, 0, 0, 0, idx, b', c', d'⟩ =
      ok (root', path)) :
    xmssSignMsg b S hf ⟨wotsParams w, h⟩ (K.sk idx) m =
      match Spec.rustSigned hf (Spec.PRF (hf.prim S) K.skPrf (Spec.be 32 idx) ++ K.root ++ Spec.be 32 idx) m with
      | none => panic
      | some m' =>
        match Spec.rustPositions b w (Spec.digest (hf.prim S) (Spec.PRF (hf.prim S) K.skPrf (Spec.be 32 idx)) K.root idx m') with
        | none => panic
        | some ds => ok (K.sk (idx + 1), Spec.be 4 idx ++ Spec.PRF (hf.prim S) K.skPrf (Spec.be 32 idx) ++
            (Spec.wotsSig (hf.prim S) K.skSeed K.ps idx ds).flatten ++ path.flatten) :=
  signMsg_next b hf hw h K idx (by omega) (idx + 1) (u32_lt b h32) root' path m hpath

/-- If the authentication path cannot be read, `xmss_sign_msg` panics. -/
theorem signMsg_panic_any (b : Build) (hf : HashFn) {w : Nat} (hw : Spec.RangeW w) (h : Nat)
    (K : KeyParts) (idx : Nat) (h32 : idx < 2 ^ 32) (m : Bytes)
    (hpath : ∀ b' c' d', computeAuthpathWots b S hf idx K.skSeed ⟨wotsParams w, h⟩ K.ps ⟨0, 0, 0, 0, idx, b', c', d'⟩ = panic) :
    xmssSignMsg b S hf ⟨wotsParams w, h⟩ (K.sk idx) m = panic := by
  have s0 := be32At_sim _ _ (K.idx idx h32)
  have s1 := sim_slice _ _ _ _ (K.seed_slice idx)
  have s2 := sim_slice _ _ _ _ (K.prf_slice idx)
  have s3 := sim_slice _ _ _ _ (K.ps_slice idx)
  rw [xmssSignMsg]
  simp only [s0, s1, s2, s3, ok_bind]
  cases hn : u32 b (idx + 1) with
  | panic => rfl
  | err e => exact absurd hn (u32_noErr _ _ _)
  | ok next =>
    have s4 := sim_slice _ _ _ _ (K.root_slice next)
    simp only [ok_bind, toByte_rs]
    rw [prf_rs S _ _ K.skPrf (length_toByte _ _) (by rw [K.l2]), take32_of K.l2]
    simp only [ok_bind]
    rw [show idxBytes next ++ (K.sk idx).drop 4 = K.sk next from K.reindex idx next, s4]
    simp only [ok_bind, prf_eq, toByte_eq_be]
    rw [hMsg_rs _ _ _ (length_signKey _ K idx)]
    cases Spec.rustSigned hf (Spec.PRF (hf.prim S) K.skPrf (Spec.be 32 idx) ++ K.root ++ Spec.be 32 idx) m with
    | none => rfl
    | some m' =>
      simp only [ok_bind, hMsg_eq]
      rw [signDigest]
      dsimp only
      rw [getSeed_rs S _ _ _ (by rw [K.l1]), take32_of K.l1,
        show setOTS (setType {} 0) idx = ⟨0, 0, 0, 0, idx, 0, 0, 0⟩ from rfl, getSeed_eq]
      simp only [ok_bind]
      have hd : (Spec.Hmsg (hf.prim S) (Spec.PRF (hf.prim S) K.skPrf (Spec.be 32 idx) ++ K.root ++ Spec.be 32 idx) m').length = 32 :=
        length_Hmsg ..
      cases hp : Spec.rustPositions b w (Spec.Hmsg (hf.prim S) (Spec.PRF (hf.prim S) K.skPrf (Spec.be 32 idx) ++ K.root ++ Spec.be 32 idx) m') with
      | none =>
        rw [wotsSign, signDigits_none hw hd hp]
        rfl
      | some ds =>
        obtain ⟨x', y', z', e⟩ := wotsSign_rsAny (S := S) hf hw hd hp K.skSeed K.ps K.l3 idx 0 0 0
        rw [e]
        simp only [ok_bind, hpath]
        rfl

/-- The constructor, for any parameter. -/
theorem basic_new_rsAny (b : Build) (seed : Bytes) (height : UInt8) (hf : HashFn) {w : Nat}
    (hw : Spec.RangeW w) (hs : seed.length = 48) (hh : GoodHeight height) :
    XMSSBasic.new b S seed height hf w =
      ok { hashFunction := hf, height := height, seed := seed, params := ⟨wotsParams w, height.toNat⟩
           sk := (keyP S hf w (Spec.rustLen w) height.toNat (rustLen_pos hw) seed).sk 0 } := by
  obtain ⟨h4, h30, he⟩ := hh
  have hc : ¬ (2 ≥ height.toNat ∨ (height.toNat - 2) % 2 ≠ 0) := by omega
  have hgen : Qrl.xmssGenkeypair S hf ⟨wotsParams w, height.toNat⟩ seed =
      .ok ((keyP S hf w (Spec.rustLen w) height.toNat (rustLen_pos hw) seed).sk 0) := by
    have h48 : (seed.drop 0).take 48 = seed := by simp [← hs]
    rw [Qrl.xmssGenkeypair, slice_eq_ok (by omega), Outcome.ok_bind, h48]
    simp only
    rw [treehash_eq S hf ⟨wotsParams w, height.toNat⟩ _ _ (rustLen_pos hw) height.toNat (by omega) 0 0 0 0 0, Outcome.ok_bind]
    simp only
    rw [← keyP_sk0 S hf w (Spec.rustLen w) height.toNat (rustLen_pos hw)]
    rfl
  rw [XMSSBasic.new, if_neg (by omega), if_neg hc, xmssParams, if_neg hc, ok_bind, genKeypair_sim S hf b _ seed hs _ hgen,
    ok_bind, XMSSBase.new, if_neg (by omega), if_neg (by omega), ok_bind]

theorem length_sigFrom (f : HashFn) {w : Nat} (hw : Spec.RangeW w) (K : KeyParts) (h i : Nat) (ds : List Nat) (hl : ds.length = Spec.rustLen w) :
    (Spec.signatureFrom (f.prim S) w h K.skSeed K.skPrf K.ps i ds).length = 36 + 32 * Spec.rustLen w + 32 * h := by
  rw [Spec.signatureFrom]
  simp only [List.length_append, length_be, length_PRF, length_flatten32 _ (mem_wotsSig S f _ _ i _),
    length_flatten32 _ (mem_authPath S f w (Spec.rustLen w) _ _ h i (rustLen_pos hw))]
  simp only [Spec.wotsSig, Spec.authPath, List.length_map, List.length_zipIdx, List.length_range, hl]

/-- `sign` for any parameter at any index. -/
theorem basic_sign_rsAny (b : Build) {w : Nat} (hw : Spec.RangeW w) (o0 : XMSSBasic)
    (hop : o0.params = ⟨wotsParams w, o0.height.toNat⟩) (hh : GoodHeight o0.height) (K : KeyParts)
    (hroot : K.root = Spec.node (o0.hashFunction.prim S) w (Spec.rustLen w) K.skSeed K.ps o0.height.toNat 0)
    (i : Nat) (h32 : i < 2 ^ 32) (hb : b = .debug ∨ i < 2 ^ (25 + o0.height.toNat)) (m : Bytes) :
    (basicAt K o0 i).sign b S m =
      if i < (if o0.height.toNat ≤ 24 then 2 ^ o0.height.toNat else 0) then
        match sigW b S o0.hashFunction w o0.height.toNat K i m with
        | none => panic
        | some s => ok (s, basicAt K o0 (i + 1))
      else panic := by
  obtain ⟨h4, h30, he⟩ := hh
  by_cases hin : o0.height.toNat ≤ 24 ∧ i < 2 ^ o0.height.toNat
  · have hpw : 2 ^ o0.height.toNat ≤ 2 ^ 24 := Nat.pow_le_pow_right (by omega) hin.1
    rw [if_pos hin.1, if_pos hin.2]
    have hpath : ∀ b' c' d', computeAuthpathWots b S o0.hashFunction i K.skSeed ⟨wotsParams w, o0.height.toNat⟩ K.ps
        ⟨0, 0, 0, 0, i, b', c', d'⟩ = ok (Spec.node (o0.hashFunction.prim S) w (Spec.rustLen w) K.skSeed K.ps o0.height.toNat 0,
          Spec.authPath (o0.hashFunction.prim S) w (Spec.rustLen w) K.skSeed K.ps o0.height.toNat i) := by
      intro b' c' d'
      have hs := computeAuthpathWots_sim S o0.hashFunction b i K.skSeed ⟨wotsParams w, o0.height.toNat⟩ K.ps
        ⟨0, 0, 0, 0, i, b', c', d'⟩ (by rw [K.l1]) (by rw [K.l3]) (by simp only; omega)
      rw [take32_of K.l1, take32_of K.l3] at hs
      exact hs _ (computeAuthpathWots_eq S o0.hashFunction ⟨wotsParams w, o0.height.toNat⟩ K.skSeed K.ps (rustLen_pos hw)
        (by simp only; omega) i hin.2 0 i b' c' d')
    rw [XMSSBasic.sign]
    simp only [basicAt, hop]
    rw [signMsg_rsAny b o0.hashFunction hw _ K i (by omega) _ _ m hpath, sigW, Spec.rustSignatureAny, ← hroot]
    cases Spec.rustSigned o0.hashFunction (Spec.PRF (o0.hashFunction.prim S) K.skPrf (Spec.be 32 i) ++ K.root ++ Spec.be 32 i) m with
    | none => rfl
    | some m' =>
      rw [Option.bind_eq_bind, Option.bind_some]
      dsimp only
      have hd : (Spec.digest (o0.hashFunction.prim S) (Spec.PRF (o0.hashFunction.prim S) K.skPrf (Spec.be 32 i)) K.root i m').length = 32 := by
        rw [Spec.digest]; exact length_Hmsg ..
      generalize hds : Spec.rustPositions b w (Spec.digest (o0.hashFunction.prim S) (Spec.PRF (o0.hashFunction.prim S) K.skPrf (Spec.be 32 i)) K.root i m') = od
      cases od with
      | none => rfl
      | some ds =>
        rw [Option.bind_eq_bind, Option.bind_some]
        dsimp only
        rw [ok_bind, fillBuffer_exact]
        · rfl
        · show (Spec.signatureFrom (o0.hashFunction.prim S) w o0.height.toNat K.skSeed K.skPrf K.ps i ds).length =
            4 + 32 + (wotsParams w).keysize + o0.height.toNat * 32
          rw [length_sigFrom _ hw K _ _ _ (rustPositions_props hw hd hds).1, show (wotsParams w).keysize = Spec.rustLen w * 32 from rfl]
          omega
  · rw [if_neg (show ¬ i < _ from by
      by_cases h24 : o0.height.toNat ≤ 24
      · rw [if_pos h24]; omega
      · rw [if_neg h24]; omega)]
    rw [XMSSBasic.sign]
    simp only [basicAt, hop]
    rw [signMsg_panic_any b o0.hashFunction hw o0.height.toNat K i h32 m]
    · rfl
    · intro b' c' d'
      by_cases h24 : o0.height.toNat ≤ 24
      · exact computeAuthpath_oob_rs b _ ⟨wotsParams w, o0.height.toNat⟩ _ _ K.l1 K.l3 (rustLen_pos hw) (show 1 ≤ o0.height.toNat by omega)
          h24 i (show 2 ^ o0.height.toNat ≤ i by omega) h32 hb _ _ _ _ _
      · exact computeAuthpath_tall_rs b _ ⟨wotsParams w, o0.height.toNat⟩ _ _ K.l1 K.l3 (rustLen_pos hw) (show 26 ≤ o0.height.toNat by omega)
          h30 i _ _ _ _ _

/-- Histories. -/
theorem basic_run_rsAny (b : Build) {w : Nat} (hw : Spec.RangeW w) (o0 : XMSSBasic)
    (hop : o0.params = ⟨wotsParams w, o0.height.toNat⟩) (hh : GoodHeight o0.height) (K : KeyParts)
    (hroot : K.root = Spec.node (o0.hashFunction.prim S) w (Spec.rustLen w) K.skSeed K.ps o0.height.toNat 0)
    (cs : List Call) : ∀ i, i < 2 ^ 32 →
      (b = .debug ∨ i < 2 ^ (25 + o0.height.toNat) ∧ ∀ n, Call.setIndex n ∈ cs → n.toNat < 2 ^ (25 + o0.height.toNat)) →
    runCalls (XMSSBasic.call b S) (basicAt K o0 i) cs =
      (Spec.partialLoose (if o0.height.toNat ≤ 24 then 2 ^ o0.height.toNat else 0) (sigW b S o0.hashFunction w o0.height.toNat K) i cs).map
        (fun x => (x.1, basicAt K o0 x.2)) ∧
    ∀ x, Spec.partialLoose (if o0.height.toNat ≤ 24 then 2 ^ o0.height.toNat else 0) (sigW b S o0.hashFunction w o0.height.toNat K) i cs =
      some x → x.2 < 2 ^ 32 := by
  have hlim : ∀ i, i < (if o0.height.toNat ≤ 24 then 2 ^ o0.height.toNat else 0) → i + 1 < 2 ^ 32 ∧ i + 1 < 2 ^ (25 + o0.height.toNat) := by
    intro i hi
    split at hi
    · rename_i h24
      have hpw : 2 ^ o0.height.toNat ≤ 2 ^ 24 := Nat.pow_le_pow_right (by omega) h24
      rw [Nat.pow_add]
      omega
    · omega
  induction cs with
  | nil => intro i hi _; exact ⟨rfl, fun x h => by cases h; exact hi⟩
  | cons c cs ih =>
    intro i hi hb
    cases c with
    | setIndex n =>
      have hb' : b = .debug ∨ n.toNat < 2 ^ (25 + o0.height.toNat) ∧ ∀ n, Call.setIndex n ∈ cs → n.toNat < 2 ^ (25 + o0.height.toNat) := by
        rcases hb with h | ⟨_, h⟩
        · exact Or.inl h
        · exact Or.inr ⟨h n List.mem_cons_self, fun n hn => h n (List.mem_cons_of_mem _ hn)⟩
      obtain ⟨e1, e2⟩ := ih n.toNat n.toNat_lt hb'
      rw [runCalls, Spec.partialLoose, XMSSBasic.call, basic_setIndex_rs K o0 i n.toNat n.toNat_lt]
      simp only
      rw [show ({ basicAt K o0 i with toXMSSBase := (basicAt K o0 n.toNat).toXMSSBase } : XMSSBasic) = basicAt K o0 n.toNat from rfl, e1]
      constructor
      · cases Spec.partialLoose (if o0.height.toNat ≤ 24 then 2 ^ o0.height.toNat else 0) (sigW b S o0.hashFunction w o0.height.toNat K) n.toNat cs <;> rfl
      · intro x hx
        obtain ⟨y, hy, rfl⟩ := Option.map_eq_some_iff.mp hx
        exact e2 y hy
    | sign m =>
      rw [runCalls, Spec.partialLoose, XMSSBasic.call, basic_sign_rsAny b hw o0 hop hh K hroot i hi
        (by rcases hb with h | h; exact Or.inl h; exact Or.inr h.1) m]
      by_cases hc : i < (if o0.height.toNat ≤ 24 then 2 ^ o0.height.toNat else 0)
      · have hb' : b = .debug ∨ i + 1 < 2 ^ (25 + o0.height.toNat) ∧ ∀ n, Call.setIndex n ∈ cs → n.toNat < 2 ^ (25 + o0.height.toNat) := by
          rcases hb with h | ⟨_, h⟩
          · exact Or.inl h
          · exact Or.inr ⟨(hlim i hc).2, fun n hn => h n (List.mem_cons_of_mem _ hn)⟩
        obtain ⟨e1, e2⟩ := ih (i + 1) (hlim i hc).1 hb'
        rw [if_pos hc, if_pos hc]
        cases hs : sigW b S o0.hashFunction w o0.height.toNat K i m with
        | none => exact ⟨rfl, fun x h => by cases h⟩
        | some s =>
          simp only
          rw [e1]
          constructor
          · cases Spec.partialLoose (if o0.height.toNat ≤ 24 then 2 ^ o0.height.toNat else 0) (sigW b S o0.hashFunction w o0.height.toNat K) (i + 1) cs <;> rfl
          · intro x hx
            obtain ⟨y, hy, rfl⟩ := Option.map_eq_some_iff.mp hx
            exact e2 y hy
      · rw [if_neg hc, if_neg hc]
        exact ⟨rfl, fun x h => by cases h⟩

theorem u32_release (x : Nat) : u32 .release x = ok (x % 2 ^ 32) := by
  rw [u32.eq_def]
  split
  · rw [Nat.mod_eq_of_lt (by omega)]
  · rfl

/-- Height 4, no overflow checks: the path of leaf `c * 2^30 + j` is read from the slots of leaf `j`. -/
theorem authCopy_wrap (tree : List Cell) (c j : Nat) (hj : j < 16) (hc : c * 2 ^ 30 + j < 2 ^ 32) :
    authCopy .release tree 16 (c * 2 ^ 30 + j) 4 0 = authCopy .release tree 16 j 4 0 := by
  have key : ∀ l ≤ 3, u32 .release (((((c * 2 ^ 30 + j) >>> l) ^^^ 1) % 2 ^ 32) * 32) = u32 .release ((((j >>> l) ^^^ 1) % 2 ^ 32) * 32) := by
    intro l hl
    have e : ((c * 2 ^ 30 + j) >>> l) ^^^ 1 = c * 2 ^ (30 - l) + ((j >>> l) ^^^ 1) := by
      have hd : (c * 2 ^ 30 + j) >>> l = c * 2 ^ (30 - l) + j >>> l := by
        rw [Nat.shiftRight_eq_div_pow, Nat.shiftRight_eq_div_pow]
        rw [show c * 2 ^ 30 = (c * 2 ^ (30 - l)) * 2 ^ l by
          rw [Nat.mul_assoc, ← Nat.pow_add, show 30 - l + l = 30 by omega]]
        rw [Nat.add_comm, Nat.add_mul_div_right _ _ (Nat.two_pow_pos l), Nat.add_comm]
      rw [hd, xor_one, xor_one, Spec.sibling, Spec.sibling]
      have : c * 2 ^ (30 - l) % 2 = 0 := by
        obtain ⟨r, hr⟩ : ∃ r, 30 - l = r + 1 := ⟨29 - l, by omega⟩
        rw [hr, Nat.pow_succ, ← Nat.mul_assoc]
        omega
      generalize c * 2 ^ (30 - l) = z at *
      generalize j >>> l = y at *
      by_cases hy : y % 2 = 0
      · rw [if_pos hy, if_pos (by omega)]; omega
      · rw [if_neg hy, if_neg (by omega)]; omega
    rw [e]
    have hlt : (j >>> l) ^^^ 1 < 16 := by
      have : j >>> l ≤ j := Nat.shiftRight_le _ _
      rw [xor_one, Spec.sibling]
      split <;> omega
    generalize (j >>> l) ^^^ 1 = y at *
    have hc3 : c ≤ 3 := by omega
    have : l = 0 ∨ l = 1 ∨ l = 2 ∨ l = 3 := by omega
    have : (c * 2 ^ (30 - l) + y) % 2 ^ 32 * 32 % 2 ^ 32 = y * 32 := by
      rcases this with rfl | rfl | rfl | rfl <;> simp only [Nat.sub_zero, Nat.reduceSub, Nat.reducePow] <;> omega
    rw [u32_release, u32_release, this]
    congr 1
    omega
  simp only [authCopy, Nat.zero_add]
  rw [key 0 (by omega), key 1 (by omega), key 2 (by omega), key 3 (by omega)]

end Qrl.Rs
