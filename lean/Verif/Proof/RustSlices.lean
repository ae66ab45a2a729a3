import Verif.Spec.RustSlices
import Verif.Model.RustSlices
import Verif.Proof.RustLow
import Verif.Proof.RustBasicAny
import Verif.Proof.CLow
/-!
# Proofs about the Rust crate's signing functions on the caller's slices (C91)
-/

namespace Qrl.Rs

open Res

variable {S : Sha256}

theorem putInto_ok {buf data : Bytes} {off : Nat} (h : off + data.length ≤ buf.length) :
    putInto buf off data = ok (buf.take off ++ data ++ buf.drop (off + data.length)) := by rw [putInto, if_pos h]

theorem putInto_short {buf data : Bytes} {off : Nat} (h : buf.length < off + data.length) : putInto buf off data = panic := by
  rw [putInto, if_neg (by omega)]

theorem putInto_noErr (b : Bytes) (o : Nat) (d : Bytes) (e : Err) : putInto b o d ≠ err e := by
  rw [putInto]
  split <;> intro h <;> cases h

/-- The Rust write is the C write. -/
theorem putInto_sim (buf : Bytes) (off : Nat) (data : Bytes) : Sim (Qrl.putAt buf off data) (putInto buf off data) := by
  unfold Qrl.putAt putInto
  exact Sim.ite Iff.rfl (fun _ => Sim.rfl' _) (fun _ => Sim.ub _)

theorem bind_panic {α β : Type} {x : Res α} (h : ∀ e, x ≠ err e) {f : α → Res β} (hf : ∀ a, f a = panic) : (x >>= f) = panic := by
  cases x with
  | ok a => exact hf a
  | err e => exact absurd rfl (h e)
  | panic => rfl

/-- The four parts of a signature written one after the other. -/
theorem putSeq {α : Type} (sig a b c d : Bytes) (n1 n2 : Nat) (ha : a.length = 4) (hb : b.length = 32) (hc : c.length = n1)
    (hd : d.length = n2) (k : Bytes → Res α) :
    (putInto sig 0 a >>= fun s => putInto s 4 b >>= fun s => putInto s 36 c >>= fun s => putInto s (36 + n1) d >>= k) =
      if sig.length < 36 + n1 + n2 then panic else k (a ++ b ++ c ++ d ++ sig.drop (36 + n1 + n2)) := by
  have hn : ∀ (a rest : Bytes) (b : Bytes) (o : Nat), o = a.length → putInto (a ++ rest) o b =
      if rest.length < b.length then panic else ok ((a ++ b) ++ rest.drop b.length) := by
    intro a rest b o ho
    subst ho
    by_cases h : rest.length < b.length
    · rw [if_pos h, putInto_short (by rw [List.length_append]; omega)]
    · rw [if_neg h, putInto_ok (by rw [List.length_append]; omega), List.take_left, List.drop_length_add_append]
  by_cases h1 : sig.length < 4
  · rw [if_pos (by omega), putInto_short (by omega)]; rfl
  rw [putInto_ok (by omega), ok_bind, List.take_zero, List.nil_append, hn _ _ _ _ ha.symm]
  by_cases h2 : sig.length < 36
  · rw [if_pos (by rw [List.length_drop]; omega), if_pos (by omega)]; rfl
  rw [if_neg (by rw [List.length_drop]; omega), ok_bind, hn _ _ _ _ (by rw [List.length_append]; omega)]
  by_cases h3 : sig.length < 36 + n1
  · rw [if_pos (by rw [List.length_drop, List.length_drop]; omega), if_pos (by omega)]; rfl
  rw [if_neg (by rw [List.length_drop, List.length_drop]; omega), ok_bind, hn _ _ _ _ (by simp only [List.length_append]; omega)]
  by_cases h4 : sig.length < 36 + n1 + n2
  · rw [if_pos (by simp only [List.length_drop]; omega), if_pos h4]; rfl
  rw [if_neg (by simp only [List.length_drop]; omega), ok_bind, if_neg h4]
  simp only [List.drop_drop]
  congr 3
  omega

theorem slice_append {a t : Bytes} {off len : Nat} (h : off + len ≤ a.length) : slice (a ++ t) off len = slice a off len := by
  rw [slice, slice, if_pos (by rw [List.length_append]; omega), if_pos h, List.drop_append_of_le_length (by omega),
    List.take_append_of_le_length (by rw [List.length_drop]; omega)]

theorem key_be32 (K : KeyParts) {i : Nat} (h : i < 2 ^ 32) (t : Bytes) : be32At (K.sk i ++ t) = ok i :=
  be32At_sim _ _ (by rw [be32At_append (by have := K.length_sk i; omega)]; exact K.idx i h)

theorem key_seed (K : KeyParts) (i : Nat) (t : Bytes) : slice (K.sk i ++ t) 4 32 = ok K.skSeed := by
  rw [slice_append (by rw [K.length_sk]; omega)]; exact sim_slice _ _ _ _ (K.seed_slice i)

theorem key_prf (K : KeyParts) (i : Nat) (t : Bytes) : slice (K.sk i ++ t) 36 32 = ok K.skPrf := by
  rw [slice_append (by rw [K.length_sk]; omega)]; exact sim_slice _ _ _ _ (K.prf_slice i)

theorem key_ps (K : KeyParts) (i : Nat) (t : Bytes) : slice (K.sk i ++ t) 68 32 = ok K.ps := by
  rw [slice_append (by rw [K.length_sk]; omega)]; exact sim_slice _ _ _ _ (K.ps_slice i)

theorem key_root (K : KeyParts) (i : Nat) (t : Bytes) : slice (K.sk i ++ t) 100 32 = ok K.root := by
  rw [slice_append (by rw [K.length_sk])]; exact sim_slice _ _ _ _ (K.root_slice i)

theorem key_put (K : KeyParts) (i j : Nat) (t : Bytes) : putInto (K.sk i ++ t) 0 (idxBytes j) = ok (K.sk j ++ t) :=
  putInto_sim _ _ _ _ (K.put i j t)

/-- The part of a signature before the authentication path. -/
def sigHead (b : Build) (S : Sha256) (f : HashFn) (w : Nat) (K : KeyParts) (i : Nat) (m : Bytes) : Option (List Nat) := do
  let r := Spec.PRF (f.prim S) K.skPrf (Spec.be 32 i)
  let m' ← Spec.rustSigned f (r ++ K.root ++ Spec.be 32 i) m
  Spec.rustPositions b w (Spec.digest (f.prim S) r K.root i m')

theorem sliceSignature_eq (b : Build) (f : HashFn) (w h : Nat) (K : KeyParts) (i leaf : Nat) (m : Bytes) :
    Spec.sliceSignature b S f w h K.skSeed K.skPrf K.ps K.root i leaf m = (sigHead b S f w K i m).map fun ds =>
      Spec.be 4 i ++ Spec.PRF (f.prim S) K.skPrf (Spec.be 32 i) ++ (Spec.wotsSig (f.prim S) K.skSeed K.ps i ds).flatten ++
        (Spec.authPath (f.prim S) w (Spec.rustLen w) K.skSeed K.ps h leaf).flatten := by
  rw [Spec.sliceSignature, sigHead]
  simp only [Option.bind_eq_bind]
  cases Spec.rustSigned f (Spec.PRF (f.prim S) K.skPrf (Spec.be 32 i) ++ K.root ++ Spec.be 32 i) m with
  | none => rfl
  | some m' =>
    simp only [Option.bind_some]
    cases Spec.rustPositions b w (Spec.digest (f.prim S) (Spec.PRF (f.prim S) K.skPrf (Spec.be 32 i)) K.root i m') <;> rfl

theorem sigHead_length {b : Build} {f : HashFn} {w : Nat} (hw : Spec.RangeW w) {K : KeyParts} {i : Nat} {m : Bytes} {ds : List Nat}
    (h : sigHead b S f w K i m = some ds) : ds.length = Spec.rustLen w := by
  rw [sigHead] at h
  obtain ⟨m', -, h⟩ := Option.bind_eq_some_iff.mp h
  exact (rustPositions_props hw (by rw [Spec.digest]; exact length_Hmsg ..) h).1

/-- What both signing functions do before the authentication path. -/
theorem signHead_raw {α : Type} (b : Build) (hf : HashFn) {w : Nat} (hw : Spec.RangeW w) (K : KeyParts) (i : Nat) (h32 : i < 2 ^ 32)
    {next : Nat} (hnext : u32 b (i + 1) = ok next)
    (t sig msg : Bytes) (msglen : Nat) (k : Bytes → Bytes → Adrs → Res α) :
    ∃ b' c' d', (do
      let idx ← be32At (K.sk i ++ t)
      let skSeed ← slice (K.sk i ++ t) 4 32
      let skPrf ← slice (K.sk i ++ t) 36 32
      let pubSeed ← slice (K.sk i ++ t) 68 32
      let next ← u32 b (idx + 1)
      let sk ← putInto (K.sk i ++ t) 0 (idxBytes next)
      let r ← prf S hf (toByte idx 32) skPrf
      let root ← slice sk 100 32
      let hashKey := r ++ root ++ toByte idx 32
      let msgH ← hMsgLen S hf msg msglen hashKey
      let sig ← putInto sig 0 (idxBytes idx)
      let sig ← putInto sig 4 r
      let otsAddr := setOTS (setType {} 0) idx
      let (otsSeed, otsAddr) ← getSeed S hf skSeed otsAddr
      let (wsig, otsAddr) ← wotsSign b S hf (wotsParams w) msgH otsSeed pubSeed otsAddr
      let sig ← putInto sig 36 wsig.flatten
      k sk sig otsAddr) =
    if msg.length < msglen then panic
    else match sigHead b S hf w K i (msg.take msglen) with
      | none => panic
      | some ds => putInto sig 0 (idxBytes i) >>= fun s => putInto s 4 (Spec.PRF (hf.prim S) K.skPrf (Spec.be 32 i)) >>= fun s =>
          putInto s 36 (Spec.wotsSig (hf.prim S) K.skSeed K.ps i ds).flatten >>= fun s =>
          k (K.sk next ++ t) s ⟨0, 0, 0, 0, i, b', c', d'⟩ := by
  simp only [key_be32 K h32, key_seed, key_prf, key_ps, key_root, key_put, ok_bind, hnext, toByte_rs]
  rw [prf_rs S _ _ K.skPrf (length_toByte _ _) (by rw [K.l2]), take32_of K.l2]
  simp only [ok_bind, prf_eq, toByte_eq_be]
  rw [hMsgLen_eq hf msg msglen _ (length_signKey _ K i)]
  by_cases c1 : msg.length < msglen
  · refine ⟨0, 0, 0, ?_⟩
    rw [if_pos c1, if_pos c1]; rfl
  simp only [if_neg c1, sigHead]
  rw [hMsg_rs _ _ _ (length_signKey _ K i)]
  simp only [Option.bind_eq_bind]
  cases Spec.rustSigned hf (Spec.PRF (hf.prim S) K.skPrf (Spec.be 32 i) ++ K.root ++ Spec.be 32 i) (msg.take msglen) with
  | none => exact ⟨0, 0, 0, rfl⟩
  | some m' =>
    dsimp only
    simp only [ok_bind, hMsg_eq, Option.bind_some]
    have hd : (Spec.digest (hf.prim S) (Spec.PRF (hf.prim S) K.skPrf (Spec.be 32 i)) K.root i m').length = 32 := by
      rw [Spec.digest]; exact length_Hmsg ..
    rw [show Spec.Hmsg (hf.prim S) (Spec.PRF (hf.prim S) K.skPrf (Spec.be 32 i) ++ K.root ++ Spec.be 32 i) m' =
      Spec.digest (hf.prim S) (Spec.PRF (hf.prim S) K.skPrf (Spec.be 32 i)) K.root i m' from rfl,
      getSeed_rs S _ _ _ (by rw [K.l1]), take32_of K.l1,
      show setOTS (setType {} 0) i = ⟨0, 0, 0, 0, i, 0, 0, 0⟩ from rfl, getSeed_eq]
    simp only [ok_bind]
    generalize Spec.digest (hf.prim S) (Spec.PRF (hf.prim S) K.skPrf (Spec.be 32 i)) K.root i m' = d at hd ⊢
    cases hp : Spec.rustPositions b w d with
    | none =>
      refine ⟨0, 0, 0, ?_⟩
      rw [wotsSign, signDigits_none hw hd hp]
      exact bind_panic (putInto_noErr _ _ _) fun s => bind_panic (putInto_noErr _ _ _) fun s => rfl
    | some ds =>
      obtain ⟨x', y', z', e⟩ := wotsSign_rsAny (S := S) hf hw hd hp K.skSeed K.ps K.l3 i 0 0 0
      refine ⟨x', y', z', ?_⟩
      rw [e]
      rfl

theorem length_wots (hf : HashFn) (K : KeyParts) (i : Nat) {w : Nat} {ds : List Nat} (hl : ds.length = Spec.rustLen w) :
    (Spec.wotsSig (hf.prim S) K.skSeed K.ps i ds).flatten.length = 32 * Spec.rustLen w := by
  rw [length_flatten32 _ (mem_wotsSig S hf _ _ _ _)]
  simp only [Spec.wotsSig, List.length_map, List.length_zipIdx, hl]

theorem length_path (hf : HashFn) (K : KeyParts) {w : Nat} (hw : Spec.RangeW w) (h i : Nat) :
    (Spec.authPath (hf.prim S) w (Spec.rustLen w) K.skSeed K.ps h i).flatten.length = 32 * h := by
  rw [length_flatten32 _ (mem_authPath S hf _ _ _ _ _ _ (rustLen_pos hw))]
  simp [Spec.authPath]

/-- `xmss_sign_msg` on a key slice and what follows it. -/
theorem signMsgRaw_eq (b : Build) (hf : HashFn) {w h : Nat} (hw : Spec.RangeW w) (h1 : 1 ≤ h) (h30 : h ≤ 30) (hev : h % 2 = 0)
    (K : KeyParts) (i : Nat) (h32 : i < 2 ^ 32) (hb : b = .debug ∨ i < 2 ^ (25 + h)) (t sig msg : Bytes) (msglen : Nat) :
    xmssSignMsgRaw b S hf ⟨wotsParams w, h⟩ (K.sk i ++ t) sig msg msglen =
      if sig.length < Spec.rustSize w h ∨ msg.length < msglen ∨ 25 < h ∨ 2 ^ h ≤ i then panic
      else match Spec.sliceSignature b S hf w h K.skSeed K.skPrf K.ps K.root i i (msg.take msglen) with
        | none => panic
        | some s => ok (0, K.sk (i + 1) ++ t, s ++ sig.drop (Spec.rustSize w h)) := by
  have hno : ∀ e, u32 b (i + 1) ≠ err e := u32_noErr _ _
  have hcase : u32 b (i + 1) = panic ∧ i + 1 = 2 ^ 32 ∨ ∃ next, u32 b (i + 1) = ok next ∧ (i + 1 < 2 ^ 32 → next = i + 1) := by
    by_cases c : i + 1 < 2 ^ 32
    · exact Or.inr ⟨_, u32_lt b c, fun _ => rfl⟩
    · cases hu : u32 b (i + 1) with
      | panic => exact Or.inl ⟨rfl, by omega⟩
      | err e => exact absurd hu (hno e)
      | ok next => exact Or.inr ⟨_, rfl, fun g => absurd g c⟩
  rcases hcase with ⟨hp, hi⟩ | ⟨next, hnext, hi⟩
  · have hpw : 2 ^ h ≤ 2 ^ 30 := Nat.pow_le_pow_right (by omega) h30
    rw [xmssSignMsgRaw, if_pos (by omega)]
    simp only [key_be32 K h32, key_seed, key_prf, key_ps, ok_bind, hp]
    rfl
  obtain ⟨b', c', d', e⟩ := signHead_raw (S := S) b hf hw K i h32 hnext t sig msg msglen (fun sk sig otsAddr => do
      let (_, path) ← computeAuthpathWots b S hf i K.skSeed ⟨wotsParams w, h⟩ K.ps otsAddr
      let sig ← putInto sig (36 + (wotsParams w).keysize) path.flatten
      ok (0, sk, sig))
  rw [xmssSignMsgRaw]
  simp only [key_be32 K h32, key_seed, key_prf, key_ps, ok_bind] at e ⊢
  rw [e]
  by_cases c1 : msg.length < msglen
  · rw [if_pos c1, if_pos (by omega)]
  rw [if_neg c1, sliceSignature_eq]
  cases hd : sigHead b S hf w K i (msg.take msglen) with
  | none =>
    by_cases c2 : sig.length < Spec.rustSize w h ∨ msg.length < msglen ∨ 25 < h ∨ 2 ^ h ≤ i
    · rw [if_pos c2]
    · rw [if_neg c2]; rfl
  | some ds =>
    have hl := sigHead_length hw hd
    dsimp only [Option.map_some]
    by_cases c2 : 25 < h ∨ 2 ^ h ≤ i
    · have hub : computeAuthpathWots b S hf i K.skSeed ⟨wotsParams w, h⟩ K.ps ⟨0, 0, 0, 0, i, b', c', d'⟩ = panic := by
        by_cases h24 : h ≤ 24
        · exact computeAuthpath_oob_rs b _ ⟨wotsParams w, h⟩ _ _ K.l1 K.l3 (rustLen_pos hw) h1 h24 i (show 2 ^ h ≤ i by omega)
            h32 hb _ _ _ _ _
        · exact computeAuthpath_tall_rs b _ ⟨wotsParams w, h⟩ _ _ K.l1 K.l3 (rustLen_pos hw) (show 26 ≤ h by omega) h30 i _ _ _ _ _
      rw [hub, if_pos (by omega)]
      exact bind_panic (putInto_noErr _ _ _) fun s => bind_panic (putInto_noErr _ _ _) fun s =>
        bind_panic (putInto_noErr _ _ _) fun s => rfl
    · have hpw : 2 ^ h ≤ 2 ^ 30 := Nat.pow_le_pow_right (by omega) h30
      have hni := hi (by omega)
      subst hni
      have hp : computeAuthpathWots b S hf i K.skSeed ⟨wotsParams w, h⟩ K.ps ⟨0, 0, 0, 0, i, b', c', d'⟩ =
          ok (Spec.node (hf.prim S) w (Spec.rustLen w) K.skSeed K.ps h 0,
            Spec.authPath (hf.prim S) w (Spec.rustLen w) K.skSeed K.ps h i) := by
        have hs := computeAuthpathWots_sim S hf b i K.skSeed ⟨wotsParams w, h⟩ K.ps
          ⟨0, 0, 0, 0, i, b', c', d'⟩ (by rw [K.l1]) (by rw [K.l3]) (by simp only; omega)
        rw [take32_of K.l1, take32_of K.l3] at hs
        exact hs _ (computeAuthpathWots_eq S hf ⟨wotsParams w, h⟩ K.skSeed K.ps (rustLen_pos hw)
          (by simp only; omega) i (show i < 2 ^ h by omega) 0 i b' c' d')
      have := putSeq sig (idxBytes i) (Spec.PRF (hf.prim S) K.skPrf (Spec.be 32 i))
        (Spec.wotsSig (hf.prim S) K.skSeed K.ps i ds).flatten
        (Spec.authPath (hf.prim S) w (Spec.rustLen w) K.skSeed K.ps h i).flatten (32 * Spec.rustLen w) (32 * h) rfl
        (length_PRF ..) (length_wots hf K i hl) (length_path hf K hw h i) (fun s => ok ((0 : Nat), K.sk (i + 1) ++ t, s))
      simp only [hp, ok_bind, show (wotsParams w).keysize = 32 * Spec.rustLen w from Nat.mul_comm _ _]
      rw [this, show idxBytes i = Spec.be 4 i from idxBytes_eq i]
      rw [Spec.rustSize]
      by_cases c3 : sig.length < 36 + 32 * Spec.rustLen w + 32 * h
      · rw [if_pos c3, if_pos (Or.inl c3)]
      · rw [if_neg c3, if_neg (by omega)]

/-- `xmss_fast_sign_msg` on a key slice and the state that belongs to it. -/
theorem fastSignMsgRaw_eq (b : Build) (hf : HashFn) {w h : Nat} (hw : Spec.RangeW w) (hh4 : 4 ≤ h) (hh30 : h ≤ 30) (hev : h % 2 = 0)
    (K : KeyParts) {st0 : BdsState}
    (hst : BdsInv (Spec.node (hf.prim S) w (Spec.rustLen w) K.skSeed K.ps) h 0 (fun _ => none) st0)
    (i : Nat) (h32 : i < 2 ^ 32) {next : Nat} (hnext : u32 b (i + 1) = ok next) (t sig msg : Bytes) (msglen : Nat) :
    xmssFastSignMsgRaw b S hf ⟨wotsParams w, h⟩ (K.sk i ++ t) (stAt S hf ⟨wotsParams w, h⟩ K.skSeed K.ps st0 (min i (2 ^ h - 1))) sig msg
        msglen =
      if sig.length < Spec.rustSize w h ∨ msg.length < msglen then panic
      else match Spec.sliceSignature b S hf w h K.skSeed K.skPrf K.ps K.root i (min i (2 ^ h - 1)) (msg.take msglen) with
        | none => panic
        | some s => ok (0, K.sk next ++ t, s ++ sig.drop (Spec.rustSize w h),
            stAt S hf ⟨wotsParams w, h⟩ K.skSeed K.ps st0 (min (i + 1) (2 ^ h - 1))) := by
  have hpos := Nat.two_pow_pos h
  generalize hj : min i (2 ^ h - 1) = j
  have hjlt : j < 2 ^ h := by omega
  obtain ⟨b', c', d', e⟩ := signHead_raw (S := S) b hf hw K i h32 hnext t sig msg msglen (fun sk sig otsAddr => do
      let path ← authOut (stAt S hf ⟨wotsParams w, h⟩ K.skSeed K.ps st0 j).auth h 0
      let sig ← putInto sig (36 + (wotsParams w).keysize) path.flatten
      let num ← shl1 b h
      let st ← if i < num - 1 then do
          let st ← bdsRound S hf (stAt S hf ⟨wotsParams w, h⟩ K.skSeed K.ps st0 j) i K.skSeed ⟨wotsParams w, h⟩ K.ps otsAddr
          bdsTreehashUpdate S hf K.skSeed ⟨wotsParams w, h⟩ K.ps otsAddr ((h - 2) >>> 1) st
        else ok (stAt S hf ⟨wotsParams w, h⟩ K.skSeed K.ps st0 j)
      ok (0, sk, sig, st))
  rw [xmssFastSignMsgRaw]
  simp only [key_be32 K h32, key_seed, key_prf, key_ps, ok_bind] at e ⊢
  rw [e]
  by_cases c1 : msg.length < msglen
  · rw [if_pos c1, if_pos (by omega)]
  rw [if_neg c1, sliceSignature_eq]
  cases hd : sigHead b S hf w K i (msg.take msglen) with
  | none =>
    by_cases c2 : sig.length < Spec.rustSize w h ∨ msg.length < msglen
    · rw [if_pos c2]
    · rw [if_neg c2]; rfl
  | some ds =>
    have hl := sigHead_length hw hd
    dsimp only [Option.map_some]
    obtain ⟨-, T, hinv⟩ := adv_inv S hf ⟨wotsParams w, h⟩ K.skSeed K.ps (rustLen_pos hw) hh4 hh30 hev hst j hjlt
    have hpath := authOut_sim _ _ _ _ (authOut_eq _ h j _ hinv.auth.auth h 0 (by omega))
    have hap : ((List.range' 0 h).map fun l => Spec.node (hf.prim S) w (Spec.rustLen w) K.skSeed K.ps l (Spec.sibling (j / 2 ^ l))) =
        Spec.authPath (hf.prim S) w (Spec.rustLen w) K.skSeed K.ps h j := by rw [Spec.authPath, List.range_eq_range']
    have hpath' : authOut (stAt S hf ⟨wotsParams w, h⟩ K.skSeed K.ps st0 j).auth h 0 =
        ok (Spec.authPath (hf.prim S) w (Spec.rustLen w) K.skSeed K.ps h j) := by rw [← hap]; exact hpath
    have hround : ∀ s : Bytes, (if i < 2 ^ h - 1 then do
          let st ← bdsRound S hf (stAt S hf ⟨wotsParams w, h⟩ K.skSeed K.ps st0 j) i K.skSeed ⟨wotsParams w, h⟩ K.ps
            ⟨0, 0, 0, 0, i, b', c', d'⟩
          let st ← bdsTreehashUpdate S hf K.skSeed ⟨wotsParams w, h⟩ K.ps ⟨0, 0, 0, 0, i, b', c', d'⟩ ((h - 2) >>> 1) st
          ok ((0 : Nat), K.sk next ++ t, s, st)
        else ok ((0 : Nat), K.sk next ++ t, s, stAt S hf ⟨wotsParams w, h⟩ K.skSeed K.ps st0 j)) =
        ok ((0 : Nat), K.sk next ++ t, s, stAt S hf ⟨wotsParams w, h⟩ K.skSeed K.ps st0 (min (i + 1) (2 ^ h - 1))) := by
      intro s
      by_cases hc : i < 2 ^ h - 1
      · rw [if_pos hc]
        have hji : j = i := by omega
        rw [hji]
        have hstep := adv_step_rs hf ⟨wotsParams w, h⟩ K.skSeed K.ps (rustLen_pos hw) K.l1 K.l3 hh4 hh30 hev hst i
          (show i + 1 < 2 ^ h by omega) 0 i b' c' d'
        rw [show min (i + 1) (2 ^ h - 1) = i + 1 by omega, ← Res.bind_assoc, hstep, ok_bind]
      · rw [if_neg hc, show min (i + 1) (2 ^ h - 1) = j by omega]
    have := putSeq sig (idxBytes i) (Spec.PRF (hf.prim S) K.skPrf (Spec.be 32 i))
      (Spec.wotsSig (hf.prim S) K.skSeed K.ps i ds).flatten
      (Spec.authPath (hf.prim S) w (Spec.rustLen w) K.skSeed K.ps h j).flatten (32 * Spec.rustLen w) (32 * h) rfl
      (length_PRF ..) (length_wots hf K i hl) (length_path hf K hw h j)
      (fun s => ok ((0 : Nat), K.sk next ++ t, s, stAt S hf ⟨wotsParams w, h⟩ K.skSeed K.ps st0 (min (i + 1) (2 ^ h - 1))))
    simp only [hpath', ok_bind, show (wotsParams w).keysize = 32 * Spec.rustLen w from Nat.mul_comm _ _,
      shl1_lt b (show h < 32 by omega), hround]
    rw [this, show idxBytes i = Spec.be 4 i from idxBytes_eq i]
    rw [Spec.rustSize]
    by_cases c3 : sig.length < 36 + 32 * Spec.rustLen w + 32 * h
    · rw [if_pos c3, if_pos (Or.inl c3)]
    · rw [if_neg c3, if_neg (by omega)]

/-- `xmss_fast_update` on a key slice and the state that belongs to it. -/
theorem fastUpdateRaw_eq (b : Build) (hf : HashFn) {w h : Nat} (hw : Spec.RangeW w) (hh4 : 4 ≤ h) (hh30 : h ≤ 30) (hev : h % 2 = 0)
    (K : KeyParts) {st0 : BdsState}
    (hst : BdsInv (Spec.node (hf.prim S) w (Spec.rustLen w) K.skSeed K.ps) h 0 (fun _ => none) st0)
    (i : Nat) (h32 : i < 2 ^ 32) (t : Bytes) (n : UInt32) :
    xmssFastUpdateRaw b S hf ⟨wotsParams w, h⟩ (K.sk i ++ t) (stAt S hf ⟨wotsParams w, h⟩ K.skSeed K.ps st0 (min i (2 ^ h - 1))) n =
      if n.toNat ≥ 2 ^ h ∨ n.toNat < i then err .invalidArgument
      else ok (0, K.sk n.toNat ++ t, stAt S hf ⟨wotsParams w, h⟩ K.skSeed K.ps st0 (min n.toNat (2 ^ h - 1))) := by
  rw [xmssFastUpdateRaw, key_be32 K h32]
  simp only [shl1_lt b (show h < 32 by omega), ok_bind]
  by_cases c1 : n.toNat ≥ 2 ^ h
  · rw [if_pos c1, if_pos (Or.inl c1)]
  rw [if_neg c1]
  by_cases c2 : n.toNat < i
  · rw [if_pos c2, if_pos (Or.inr c2)]
  rw [if_neg c2, if_neg (by omega), Nat.min_eq_left (show i ≤ 2 ^ h - 1 by omega), Nat.min_eq_left (show n.toNat ≤ 2 ^ h - 1 by omega)]
  have hadv := adv_skip_rs hf ⟨wotsParams w, h⟩ K.skSeed K.ps (rustLen_pos hw) K.l1 K.l3 hh4 hh30 hev hst (n.toNat - i) i
    (show i + (n.toNat - i) < 2 ^ h by omega)
  simp only [key_seed, key_ps, key_put, ok_bind, hadv, show i + (n.toNat - i) = n.toNat by omega]

/-- Every history of the fast functions on a key slice and the state that belongs to it. -/
theorem sliceRun_eq (b : Build) (hf : HashFn) {w h : Nat} (hw : Spec.RangeW w) (hh4 : 4 ≤ h) (hh30 : h ≤ 30) (hev : h % 2 = 0)
    (K : KeyParts) {st0 : BdsState}
    (hst : BdsInv (Spec.node (hf.prim S) w (Spec.rustLen w) K.skSeed K.ps) h 0 (fun _ => none) st0) (t : Bytes) (cs : List CCall) :
    ∀ i : Nat, max i (2 ^ h) + cs.length < 2 ^ 32 →
    sliceRun b S hf ⟨wotsParams w, h⟩ (K.sk i ++ t, stAt S hf ⟨wotsParams w, h⟩ K.skSeed K.ps st0 (min i (2 ^ h - 1))) cs =
      (Spec.sliceCounter (Spec.rustSize w h) (2 ^ h)
        (fun j m => Spec.sliceSignature b S hf w h K.skSeed K.skPrf K.ps K.root j (min j (2 ^ h - 1)) m) i cs).map
        fun x => (x.1, (K.sk x.2 ++ t, stAt S hf ⟨wotsParams w, h⟩ K.skSeed K.ps st0 (min x.2 (2 ^ h - 1)))) := by
  induction cs with
  | nil => intro i _; rfl
  | cons c cs ih =>
    intro i hi
    rw [List.length_cons] at hi
    cases c with
    | update n =>
      rw [sliceRun, sliceCall, fastUpdateRaw_eq b hf hw hh4 hh30 hev K hst i (by omega) t n, Spec.sliceCounter]
      by_cases c1 : n.toNat ≥ 2 ^ h ∨ n.toNat < i
      · rw [if_pos c1, if_pos c1]
        simp only [Option.bind_eq_bind, Option.bind_some]
        rw [ih i (by omega), Option.map_map]
        generalize Spec.sliceCounter _ _ _ i cs = o
        cases o <;> rfl
      · rw [if_neg c1, if_neg c1]
        simp only [Option.bind_eq_bind, Option.bind_some]
        rw [ih n.toNat (by omega), Option.map_map]
        generalize Spec.sliceCounter _ _ _ n.toNat cs = o
        cases o <;> rfl
    | sign buf msg msglen =>
      rw [sliceRun, sliceCall, fastSignMsgRaw_eq b hf hw hh4 hh30 hev K hst i (by omega) (u32_lt b (show i + 1 < 2 ^ 32 by omega)) t buf msg msglen, Spec.sliceCounter]
      by_cases c1 : buf.length < Spec.rustSize w h ∨ msg.length < msglen
      · rw [if_pos c1, if_pos c1]
        rfl
      · rw [if_neg c1, if_neg c1]
        cases Spec.sliceSignature b S hf w h K.skSeed K.skPrf K.ps K.root i (min i (2 ^ h - 1)) (msg.take msglen) with
        | none => rfl
        | some s =>
          simp only [Option.bind_eq_bind, Option.bind_some]
          rw [ih (i + 1) (by omega), Option.map_map]
          generalize Spec.sliceCounter _ _ _ (i + 1) cs = o
          cases o <;> rfl

theorem shake_seed (seed : Bytes) :
    fipsShake256 96 seed 48 = if seed.length < 48 then panic else ok (Qrl.shake256 96 (seed.take 48)) := by
  by_cases h : seed.length < 48
  · rw [if_pos h, fipsShake256, absorb_reads _ 136 seed 48 _ rfl (by omega) (by omega), Spec.shakeReads, if_pos (by omega),
      if_neg (by omega)]
    rfl
  · have hl : (seed.take 48).length = 48 := by rw [List.length_take]; omega
    have e := fipsShake256_short 96 (seed.take 48) (by omega)
    rw [hl] at e
    rw [if_neg h, ← e, fipsShake256, fipsShake256, absorb_reads _ 136 seed 48 _ rfl (by omega) (by omega),
      absorb_reads _ 136 (seed.take 48) 48 _ rfl (by omega) (by omega), Spec.shakeReads, Spec.shakeReads, if_pos (by omega),
      if_pos (by omega), if_pos (by omega), if_pos (by omega), List.take_take]
    rfl

/-- What both key generation functions do to the slices around the computation of the root. -/
theorem genRaw {α β : Type} (pk sk seed : Bytes) (root : Bytes → Bytes → Res (Bytes × β)) (fin : Bytes → Bytes → β → α)
    (r : Bytes) (st : β) (h32 : r.length = 32)
    (hr : ∀ a b, 32 ≤ a.length → 32 ≤ b.length → a.take 32 = (Qrl.shake256 96 (seed.take 48)).take 32 →
      b.take 32 = (Qrl.shake256 96 (seed.take 48)).drop 64 → root a b = ok (r, st)) :
    (do
      let sk ← putInto sk 0 [0, 0, 0, 0]
      let randombits ← fipsShake256 96 seed 48
      let sk ← putInto sk 4 randombits
      let x ← slice sk 68 32
      let pk ← putInto pk 32 x
      let (root, st) ← root (sk.drop 4) (sk.drop 68)
      let pk ← putInto pk 0 root
      let root ← slice pk 0 32
      let sk ← putInto sk 100 root
      ok (fin pk sk st)) =
    if pk.length < 64 ∨ sk.length < 132 ∨ seed.length < 48 then panic
    else ok (fin (r ++ (Qrl.shake256 96 (seed.take 48)).drop 64 ++ pk.drop 64)
        (List.replicate 4 0 ++ Qrl.shake256 96 (seed.take 48) ++ r ++ sk.drop 132) st) := by
  by_cases c1 : sk.length < 4
  · rw [putInto_short (by simpa using c1), if_pos (by omega)]; rfl
  rw [putInto_ok (by simp; omega), ok_bind, shake_seed]
  by_cases c2 : seed.length < 48
  · rw [if_pos c2, if_pos (by omega)]; rfl
  rw [if_neg c2, ok_bind]
  generalize hrb : Qrl.shake256 96 (seed.take 48) = rb at hr ⊢
  have hl : rb.length = 96 := by rw [← hrb]; simp
  rw [List.take_zero, List.nil_append, show ([0, 0, 0, 0] : Bytes).length = 4 from rfl]
  by_cases c3 : sk.length < 100
  · rw [putInto_short (by simp; omega), if_pos (by omega)]; rfl
  have e1 : putInto ([0, 0, 0, 0] ++ sk.drop (0 + 4)) 4 rb = ok ([0, 0, 0, 0] ++ rb ++ sk.drop 100) := by
    rw [putInto_ok (by simp; omega), hl]; simp
  rw [e1, ok_bind]
  have hlen : ([0, 0, 0, 0] ++ rb ++ sk.drop 100 : Bytes).length = sk.length := by simp; omega
  have s1 : slice ([0, 0, 0, 0] ++ rb ++ sk.drop 100) 68 32 = ok (rb.drop 64) := by
    rw [slice_append (by simp; omega), slice, if_pos (by simp; omega)]
    congr 1
    rw [List.take_of_length_le (by simp; omega), show (68 : Nat) = ([0, 0, 0, 0] : Bytes).length + 64 from rfl, List.drop_length_add_append]
  rw [s1, ok_bind]
  by_cases c4 : pk.length < 64
  · rw [putInto_short (by simp; omega), if_pos (by omega)]; rfl
  rw [putInto_ok (by simp; omega), ok_bind]
  have d4 : ([0, 0, 0, 0] ++ rb ++ sk.drop 100 : Bytes).drop 4 = rb ++ sk.drop 100 := rfl
  have d68 : ([0, 0, 0, 0] ++ rb ++ sk.drop 100 : Bytes).drop 68 = rb.drop 64 ++ sk.drop 100 := by
    rw [show (68 : Nat) = 4 + 64 from rfl, ← List.drop_drop, d4, List.drop_append_of_le_length (by omega)]
  rw [d4, d68, hr _ _ (by simp; omega) (by simp; omega) (List.take_append_of_le_length (by omega))
    (by rw [List.take_append_of_le_length (by simp; omega), List.take_of_length_le (by simp; omega)]), ok_bind]
  dsimp only
  rw [putInto_ok (by simp; omega), ok_bind, List.take_zero, List.nil_append, h32, slice_append (by omega), slice, if_pos (by omega), ok_bind]
  have hpk : (pk.take 32 ++ rb.drop 64 ++ pk.drop (32 + (rb.drop 64).length)).drop (0 + 32) = rb.drop 64 ++ pk.drop 64 := by
    have : (pk.take 32).length = 32 := by simp; omega
    rw [List.append_assoc, Nat.zero_add]
    rw [List.drop_left' this]
    simp [hl]
  rw [hpk, List.drop_zero, List.take_of_length_le (by omega)]
  by_cases c5 : sk.length < 132
  · rw [putInto_short (by rw [hlen]; omega), if_pos (by omega)]; rfl
  · have h100 : ([0, 0, 0, 0] ++ rb : Bytes).length = 100 := by simp [hl]
    rw [if_neg (by omega), putInto_ok (by rw [hlen]; omega), ok_bind, h32, List.take_left' h100]
    rw [show (100 + 32 : Nat) = ([0, 0, 0, 0] ++ rb : Bytes).length + 32 by omega, List.drop_length_add_append, List.drop_drop]
    simp only [List.append_assoc]
    rfl

theorem genKeypairRaw_eq (b : Build) (hf : HashFn) {w h : Nat} (hw : Spec.RangeW w) (hh : h < 32) (pk sk seed : Bytes) :
    xmssGenKeypairRaw b S hf ⟨wotsParams w, h⟩ pk sk seed =
      if pk.length < 64 ∨ sk.length < 132 ∨ seed.length < 48 then panic
      else
        let x := Qrl.shake256 96 (seed.take 48)
        let root := Spec.node (hf.prim S) w (Spec.rustLen w) (x.take 32) (x.drop 64) h 0
        ok (0, root ++ x.drop 64 ++ pk.drop 64, List.replicate 4 0 ++ x ++ root ++ sk.drop 132) := by
  have e := genRaw pk sk seed (fun a c => treehash b S hf h a ⟨wotsParams w, h⟩ c {} >>= fun r => ok (r, ()))
    (fun pk sk _ => ((0 : Nat), pk, sk))
    (Spec.node (hf.prim S) w (Spec.rustLen w) ((Qrl.shake256 96 (seed.take 48)).take 32) ((Qrl.shake256 96 (seed.take 48)).drop 64) h 0)
    () (length_node S hf _ _ _ _ (rustLen_pos hw) _ _) (by
      intro a c ha hc h1 h2
      have := treehash_sim S hf b h a ⟨wotsParams w, h⟩ c {} ha hc
      rw [h1, h2] at this
      rw [this _ (treehash_eq S hf ⟨wotsParams w, h⟩ _ _ (rustLen_pos hw) h hh 0 0 0 0 0)]
      rfl)
  have hb : ∀ a c (k : Bytes × Unit → Res (Nat × Bytes × Bytes)),
      ((treehash b S hf h a ⟨wotsParams w, h⟩ c {} >>= fun r => ok (r, ())) >>= k) =
        (treehash b S hf h a ⟨wotsParams w, h⟩ c {} >>= fun r => k (r, ())) := by
    intro a c k
    cases treehash b S hf h a ⟨wotsParams w, h⟩ c {} <;> rfl
  simp only [hb] at e
  exact e

theorem fastGenKeypairRaw_eq (b : Build) (hf : HashFn) {w h : Nat} (hw : Spec.RangeW w) (hh4 : 4 ≤ h) (hh30 : h ≤ 30) (hev : h % 2 = 0)
    (pk sk seed : Bytes) :
    ∃ st, BdsInv (Spec.node (hf.prim S) w (Spec.rustLen w) ((Qrl.shake256 96 (seed.take 48)).take 32)
        ((Qrl.shake256 96 (seed.take 48)).drop 64)) h 0 (fun _ => none) st ∧
      xmssFastGenKeypairRaw b S hf ⟨wotsParams w, h⟩ pk sk (bdsInit h) seed =
      if pk.length < 64 ∨ sk.length < 132 ∨ seed.length < 48 then panic
      else
        let x := Qrl.shake256 96 (seed.take 48)
        let root := Spec.node (hf.prim S) w (Spec.rustLen w) (x.take 32) (x.drop 64) h 0
        ok (root ++ x.drop 64 ++ pk.drop 64, List.replicate 4 0 ++ x ++ root ++ sk.drop 132, st) := by
  obtain ⟨st, e1, e2⟩ := treehashSetup_eq S hf ⟨wotsParams w, h⟩ ((Qrl.shake256 96 (seed.take 48)).take 32)
    ((Qrl.shake256 96 (seed.take 48)).drop 64) (rustLen_pos hw) hh4 hh30
  refine ⟨st, e2, ?_⟩
  rw [xmssFastGenKeypairRaw, if_neg (by simp only [Nat.and_one_is_mod]; omega)]
  exact genRaw pk sk seed (fun a c => treehashSetup b S hf h (bdsInit h) a ⟨wotsParams w, h⟩ c {})
    (fun pk sk st => (pk, sk, st)) _ st (length_node S hf _ _ _ _ (rustLen_pos hw) _ _) (by
      intro a c ha hc h1 h2
      have := treehashSetup_sim S hf b h (bdsInit h) a ⟨wotsParams w, h⟩ c ha hc hh30 (by show 2 ≤ h; omega) hh30 (by simp [bdsInit])
      rw [h1, h2] at this
      exact this _ e1)

end Qrl.Rs
