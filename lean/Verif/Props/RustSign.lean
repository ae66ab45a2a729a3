import Verif.Props.RustVerify
import Verif.Props.Basic
/-!
# C52: histories of calls on the Rust signers (src/rust_wrapper/qrl/xmss_fast.rs, xmss_basic.rs)
-/

namespace Qrl.Props

open Qrl.Spec

/-- The 96-byte hash key of one-time key `i` of the key derived from `seed`. -/
def seedSignKey (S : Sha256) (f : HashFn) (w h : Nat) (seed : Bytes) (i : Nat) : Bytes :=
  signKey (f.prim S) w h ((shake256 96 seed).take 32) (((shake256 96 seed).drop 32).take 32) ((shake256 96 seed).drop 64) i

/-- What signing `m` with one-time key `i` gives in Rust: the specified signature, but of the message the Rust hash sees;
`none`: panic. -/
def rustSignature (S : Sha256) (f : HashFn) (w h : Nat) (seed : Bytes) (i : Nat) (m : Bytes) : Option Bytes :=
  (rustSigned f (seedSignKey S f w h seed i) m).map (seedSignature S f w h seed i)

theorem rustSig_eq (S : Sha256) (f : HashFn) (w h : Nat) (hw : 1 ≤ lenW w) (seed : Bytes) :
    Rs.rustSig S f w h (keyOf S f w h hw seed) = rustSignature S f w h seed := by
  funext i m; rfl

/-- C52. **Refinement.** On any history of `set_index` and `sign` calls, in both build modes, a new `XMSSFast` behaves like
the ideal counter that signs with `rustSignature`: same replies, same final index, panic at the same call. -/
theorem C52_fast_history (b : Rs.Build) (S : Sha256) (seed : Bytes) (height : UInt8) (hf : HashFn) (w : Nat)
    (hw : w = 2 ∨ w = 4 ∨ w = 16 ∨ w = 256) (hs : seed.length = 48) (hh : GoodHeight height) (o0 : Rs.XMSSFast)
    (hnew : Rs.XMSSFast.new b S seed height hf w = .ok o0) (cs : List Call) :
    match partialRun (2 ^ height.toNat) (rustSignature S hf w height.toNat seed) 0 cs with
    | some (rs, i) => ∃ o, runCalls (Rs.XMSSFast.call b S) o0 cs = some (rs, o) ∧ o.getIndex = .ok i
    | none => runCalls (Rs.XMSSFast.call b S) o0 cs = none := by
  obtain ⟨p, k, q, o, e1, rfl, rfl, e4, e5, H⟩ := Rs.fast_new_rs (S := S) b seed height hf hw hs hh
  rw [e1] at hnew
  cases hnew
  have hr := Rs.rs_run H b cs 0 (Nat.zero_le _)
  rw [Rs.rs_fastAt_zero H, rustSig_eq] at hr
  have hrange : ∀ (cs : List Call) (i : Nat) x, i ≤ 2 ^ o0.height.toNat →
      partialRun (2 ^ o0.height.toNat) (rustSignature S o0.hashFunction w o0.height.toNat seed) i cs = some x →
      x.2 ≤ 2 ^ o0.height.toNat := by
    intro cs
    induction cs with
    | nil => intro i x hi h; cases h; exact hi
    | cons c cs ih =>
      intro i x hi h
      cases c with
      | setIndex n =>
        rw [partialRun] at h
        split at h
        · rename_i hc
          obtain ⟨y, hy, rfl⟩ := Option.map_eq_some_iff.mp h
          exact ih _ y (by omega) hy
        · obtain ⟨y, hy, rfl⟩ := Option.map_eq_some_iff.mp h
          exact ih _ y hi hy
      | sign m =>
        rw [partialRun] at h
        split at h
        · split at h
          · cases h
          · obtain ⟨y, hy, rfl⟩ := Option.map_eq_some_iff.mp h
            exact ih _ y (by omega) hy
        · obtain ⟨y, hy, rfl⟩ := Option.map_eq_some_iff.mp h
          exact ih _ y hi hy
  cases hp : partialRun (2 ^ o0.height.toNat) (rustSignature S o0.hashFunction w o0.height.toNat seed) 0 cs with
  | none => rw [hp] at hr; exact hr
  | some x =>
    rw [hp] at hr
    exact ⟨_, hr, Rs.rs_getIndex H x.2 (hrange cs 0 x (Nat.zero_le _) hp)⟩

/-- A counter that does not panic is the counter of `Verif.Spec.Counter`. -/
theorem partialRun_total (limit : Nat) (σ : Nat → Bytes → Option Bytes) (τ : Nat → Bytes → Bytes) (cs : List Call) :
    ∀ i x, (∀ i m s, Call.sign m ∈ cs → σ i m = some s → s = τ i m) → partialRun limit σ i cs = some x →
      x = counterRun limit τ i cs := by
  induction cs with
  | nil => intro i x _ h; cases h; rfl
  | cons c cs ih =>
    intro i x hσ h
    have hσ' : ∀ i m s, Call.sign m ∈ cs → σ i m = some s → s = τ i m := fun i m s hm => hσ i m s (List.mem_cons_of_mem _ hm)
    cases c with
    | setIndex n =>
      rw [partialRun] at h
      rw [counterRun, counterCall]
      split at h
      · rename_i hc
        obtain ⟨y, hy, rfl⟩ := Option.map_eq_some_iff.mp h
        rw [if_pos hc]
        dsimp only
        rw [← ih _ y hσ' hy]
      · rename_i hc
        obtain ⟨y, hy, rfl⟩ := Option.map_eq_some_iff.mp h
        rw [if_neg hc]
        dsimp only
        rw [← ih _ y hσ' hy]
    | sign m =>
      rw [partialRun] at h
      rw [counterRun, counterCall]
      split at h
      · rename_i hc
        split at h
        · cases h
        · rename_i s hs
          obtain ⟨y, hy, rfl⟩ := Option.map_eq_some_iff.mp h
          rw [if_pos hc]
          dsimp only
          rw [← ih _ y hσ' hy, hσ i m s (List.mem_cons_self ..) hs]
      · rename_i hc
        obtain ⟨y, hy, rfl⟩ := Option.map_eq_some_iff.mp h
        rw [if_neg hc]
        dsimp only
        rw [← ih _ y hσ' hy]

/-- A counter whose signing function is defined on the messages of the history does not panic. -/
theorem partialRun_defined (limit : Nat) (σ : Nat → Bytes → Option Bytes) (cs : List Call) :
    ∀ i, (∀ i m, Call.sign m ∈ cs → ∃ s, σ i m = some s) → ∃ x, partialRun limit σ i cs = some x := by
  induction cs with
  | nil => intro i _; exact ⟨_, rfl⟩
  | cons c cs ih =>
    intro i hσ
    have hσ' : ∀ i m, Call.sign m ∈ cs → ∃ s, σ i m = some s := fun i m hm => hσ i m (List.mem_cons_of_mem _ hm)
    cases c with
    | setIndex n =>
      rw [partialRun]
      split
      · obtain ⟨y, hy⟩ := ih n.toNat hσ'; rw [hy]; exact ⟨_, rfl⟩
      · obtain ⟨y, hy⟩ := ih i hσ'; rw [hy]; exact ⟨_, rfl⟩
    | sign m =>
      rw [partialRun]
      split
      · obtain ⟨s, hs⟩ := hσ i m (List.mem_cons_self ..)
        obtain ⟨y, hy⟩ := ih (i + 1) hσ'
        rw [hs, hy]; exact ⟨_, rfl⟩
      · obtain ⟨y, hy⟩ := ih i hσ'; rw [hy]; exact ⟨_, rfl⟩

/-- C52. On histories whose messages are all short, Rust and C++ give the same replies and end at the same index, call
by call; Rust never panics. -/
theorem C52_same_as_cpp (b : Rs.Build) (S : Sha256) (seed : Bytes) (height : UInt8) (hf : HashFn)
    (hs : seed.length = 48) (hh : GoodHeight height) (o0 : Rs.XMSSFast) (c0 : XmssFast)
    (hnew : Rs.XMSSFast.new b S seed height hf 16 = .ok o0) (hcpp : XmssFast.new S seed height hf.toNat 0 = .ok c0)
    (cs : List Call) (hshort : ∀ m, Call.sign m ∈ cs → rustShort hf m) :
    ∃ rs o c i, runCalls (Rs.XMSSFast.call b S) o0 cs = some (rs, o) ∧ runCalls (XmssFast.call S) c0 cs = some (rs, c) ∧
      o.getIndex = .ok i ∧ c.getIndex = .ok i := by
  have h1 := C52_fast_history b S seed height hf 16 (by omega) hs hh o0 hnew cs
  obtain ⟨c, h2, h3⟩ := C19_fast_refines_counter S seed height hf 0 c0 hcpp cs
  obtain ⟨x, hx⟩ := partialRun_defined (2 ^ height.toNat) (rustSignature S hf 16 height.toNat seed) cs 0
    (fun i m hm => ⟨_, by rw [rustSignature, rustSigned_short (hshort m hm)]; rfl⟩)
  have hxe := partialRun_total (2 ^ height.toNat) (rustSignature S hf 16 height.toNat seed)
    (seedSignature S hf 16 height.toNat seed) cs 0 x (fun i m s hm h => by
      rw [rustSignature, rustSigned_short (hshort m hm)] at h
      exact (Option.some.inj h).symm) hx
  rw [hx, hxe] at h1
  obtain ⟨o, h4, h5⟩ := h1
  exact ⟨_, o, c, _, h4, h2, h5, h3⟩

/-- C52. Over any history the one-time key indices in the returned signatures are strictly increasing and below
`2^height`: no reuse, whatever the messages. -/
theorem C52_no_reuse (b : Rs.Build) (S : Sha256) (seed : Bytes) (height : UInt8) (hf : HashFn) (w : Nat)
    (hw : w = 2 ∨ w = 4 ∨ w = 16 ∨ w = 256) (hs : seed.length = 48) (hh : GoodHeight height) (o0 : Rs.XMSSFast)
    (hnew : Rs.XMSSFast.new b S seed height hf w = .ok o0) (cs : List Call) (rs : List Reply) (o : Rs.XMSSFast)
    (hrun : runCalls (Rs.XMSSFast.call b S) o0 cs = some (rs, o)) :
    ((signatures rs).map sigIndex).Pairwise (· < ·) ∧ ∀ s ∈ signatures rs, sigIndex s < 2 ^ height.toNat := by
  have h1 := C52_fast_history b S seed height hf w hw hs hh o0 hnew cs
  cases hx : partialRun (2 ^ height.toNat) (rustSignature S hf w height.toNat seed) 0 cs with
  | none => rw [hx] at h1; dsimp only at h1; rw [hrun] at h1; cases h1
  | some x =>
    rw [hx] at h1
    dsimp only at h1
    obtain ⟨o', h2, _⟩ := h1
    rw [hrun] at h2
    cases h2
    let τ : Nat → Bytes → Bytes := fun i m => (rustSignature S hf w height.toNat seed i m).getD (be 4 i)
    have hxe := partialRun_total (2 ^ height.toNat) (rustSignature S hf w height.toNat seed) τ cs 0 x
      (fun i m s _ h => by simp only [τ, h]; rfl) hx
    have h32 : 2 ^ height.toNat ≤ 2 ^ 30 := Nat.pow_le_pow_right (by omega) hh.2.1
    have hidx : ∀ i m, i < 2 ^ height.toNat → sigIndex (τ i m) = i := by
      intro i m hi
      simp only [τ, rustSignature]
      cases rustSigned hf (seedSignKey S hf w height.toNat seed i) m with
      | none =>
        show sigIndex (be 4 i) = i
        rw [sigIndex, List.take_of_length_le (Nat.le_of_eq (length_be ..)), byteVal_be, Nat.mod_eq_of_lt (by omega)]
      | some m' => exact sigIndex_signature S hf w _ _ _ _ i m' (by omega)
    obtain ⟨g1, g2⟩ := counterRun_indices (2 ^ height.toNat) τ sigIndex hidx cs 0 (Nat.zero_le _)
    have g3 := counterRun_range (2 ^ height.toNat) τ cs 0 (Nat.zero_le _)
    rw [← hxe] at g1 g2 g3
    exact ⟨g1, fun s hs => by have := (g2 s hs).2; omega⟩

/-- C52. Which messages can be signed: all short and cut ones; on a long one `sign` panics (with an index left). -/
theorem C52_sign_panics_iff (S : Sha256) (f : HashFn) (w h : Nat) (seed : Bytes) (i : Nat) (m : Bytes) :
    rustSignature S f w h seed i m = none ↔ rustLong f m := by
  obtain ⟨h1, h2, h3⟩ := C53_message_classes f m
  rw [rustSignature]
  constructor
  · intro h
    rcases h1 with h1 | h1 | h1
    · rw [rustSigned_short h1] at h; cases h
    · rw [rustSigned_cut h1] at h; cases h
    · exact h1
  · intro h
    rw [rustSigned_long h]; rfl

/-- C52. Two cut messages of the same length with the same first bytes get the same signature. -/
theorem C52_sign_cut (S : Sha256) (f : HashFn) (w h : Nat) (seed : Bytes) (i : Nat) (m m' : Bytes)
    (hc : rustCut f m) (hl : m.length = m'.length) (hp : m.take (rustRoom f) = m'.take (rustRoom f)) :
    rustSignature S f w h seed i m = rustSignature S f w h seed i m' := by
  rw [rustSignature, rustSignature, rustSigned_same hc hl hp]

theorem keyInSig_signature (S : Sha256) (hf : HashFn) (w h : Nat) (skSeed skPrf ps : Bytes) (idx : Nat) (msg : Bytes)
    (hi : idx < 2 ^ 32) :
    keyInSig (signature (hf.prim S) w h skSeed skPrf ps idx msg) (node (hf.prim S) w (lenW w) skSeed ps h 0) =
      signKey (hf.prim S) w h skSeed skPrf ps idx := by
  have h4 : (signature (hf.prim S) w h skSeed skPrf ps idx msg).take 4 = be 4 idx := by
    simp only [signature, List.append_assoc]
    rw [List.take_append_of_le_length (by rw [length_be]), List.take_of_length_le (by rw [length_be])]
  have h5 : ((signature (hf.prim S) w h skSeed skPrf ps idx msg).drop 4).take 32 = PRF (hf.prim S) skPrf (be 32 idx) := by
    simp only [signature, List.append_assoc]
    rw [List.drop_append_of_le_length (by rw [length_be]), List.drop_of_length_le (by rw [length_be]), List.nil_append,
      List.take_append_of_le_length (by rw [length_PRF]), List.take_of_length_le (by rw [length_PRF])]
  rw [keyInSig, h4, h5, byteVal_be, Nat.mod_eq_of_lt (by omega), signKey]

/-- What `rustSignature` returns is accepted under the public key `pk` of the seed. -/
theorem rust_sig_accepted (b : Rs.Build) (S : Sha256) (seed : Bytes) (height : UInt8) (hf : HashFn) (w : Nat)
    (hw : w = 2 ∨ w = 4 ∨ w = 16 ∨ w = 256) (hh : GoodHeight height) (i : Nat) (hi : i < 2 ^ height.toNat) (m sig : Bytes)
    (hsig : rustSignature S hf w height.toNat seed i m = some sig) (o : Rs.XMSSBase) (j : Nat)
    (hsk : o.sk = (keyOf S hf w height.toNat (lenW_pos hw) seed).sk j) (hhf : o.hashFunction = hf) (hht : o.height = height) :
    ∃ pk, o.getPk = .ok pk ∧ Rs.verify b S m sig pk w = .ret () m := by
  have h32 : 2 ^ height.toNat ≤ 2 ^ 30 := Nat.pow_le_pow_right (by omega) hh.2.1
  let K := keyOf S hf w height.toNat (lenW_pos hw) seed
  let c : XmssBase := { params := ⟨Rs.wotsParams w, height.toNat⟩, hashFunction := hf.toNat, addrFormat := 0, height := height,
                        sk := K.sk j, seed := o.seed }
  have hsame : SameKey o c := ⟨hsk, rfl, hht, by rw [hhf], rfl⟩
  obtain ⟨_, _, _, _, _, ⟨pk, g1, g2⟩, _⟩ := C51_same_getters o c hsame (K.length_sk j)
  refine ⟨pk, g1, ?_⟩
  rw [rustSignature] at hsig
  obtain ⟨m', hm', rfl⟩ := Option.map_eq_some_iff.mp hsig
  obtain ⟨pk', g3, g4⟩ := verify_honest S hf hw K c j rfl rfl hh rfl i hi m'
  rw [g2] at g3
  obtain rfl := Outcome.ok.inj g3
  have hpk := getPK_eq K c j rfl
  rw [g2] at hpk
  obtain ⟨f1, f2, f3, f4, f5⟩ := pk_fields K c hf rfl hh
  rw [← Outcome.ok.inj hpk] at f1 f2 f3 f4 f5
  rw [C53_accepts_iff b S _ _ _ w hw]
  refine ⟨?_, hf, m', by rw [f2, ofNat?_toNat], ?_, g4⟩
  · rw [Outcome.ok.inj hpk, ← rs_descBytes hsame, Rs.XMSSBase.getDescriptorBytes, rs_getBytes]
    simp only [List.cons_append, List.getD_cons_succ, List.getD_cons_zero, UInt8.toNat_ofNat']
    omega
  · rw [f4]
    show rustSigned hf (keyInSig (signature (hf.prim S) w height.toNat K.skSeed K.skPrf K.ps i m') K.root) m = some m'
    rw [show K.root = node (hf.prim S) w (lenW w) K.skSeed K.ps height.toNat 0 from rfl,
      keyInSig_signature S hf w _ _ _ _ i m' (by omega)]
    exact hm'

/-- C52, C53. Rust verifies what Rust signs: every signature in every history is accepted for the message it was returned
for, under the key of the signer. -/
theorem C52_sign_verifies (b b' : Rs.Build) (S : Sha256) (seed : Bytes) (height : UInt8) (hf : HashFn) (w : Nat)
    (hw : w = 2 ∨ w = 4 ∨ w = 16 ∨ w = 256) (hs : seed.length = 48) (hh : GoodHeight height) (o0 : Rs.XMSSFast)
    (hnew : Rs.XMSSFast.new b S seed height hf w = .ok o0) (cs : List Call) (rs : List Reply) (o : Rs.XMSSFast)
    (hrun : runCalls (Rs.XMSSFast.call b S) o0 cs = some (rs, o)) (m sig : Bytes) (o' : Rs.XMSSFast)
    (hsign : o.sign b S m = .ret sig o') :
    ∃ pk, o0.getPk = .ok pk ∧ o'.getPk = .ok pk ∧ Rs.verify b' S m sig pk w = .ret () m := by
  obtain ⟨p, k, q, o1, e1, rfl, rfl, e4, e5, H⟩ := Rs.fast_new_rs (S := S) b seed height hf hw hs hh
  rw [e1] at hnew
  cases hnew
  have hr := Rs.rs_run H b cs 0 (Nat.zero_le _)
  rw [Rs.rs_fastAt_zero H, hrun] at hr
  obtain ⟨x, hx, hxe⟩ := Option.map_eq_some_iff.mp hr.symm
  cases hxe
  have hle : x.2 ≤ 2 ^ o0.height.toNat := by
    have h1 := C52_fast_history b S seed o0.height o0.hashFunction w hw hs hh o0 e1 cs
    rw [rustSig_eq] at hx
    have hxe := partialRun_total (2 ^ o0.height.toNat) (rustSignature S o0.hashFunction w o0.height.toNat seed)
      (fun i m => (rustSignature S o0.hashFunction w o0.height.toNat seed i m).getD []) cs 0 x
      (fun i m s _ h => by simp only [h]; rfl) hx
    have := (counterRun_range (2 ^ o0.height.toNat)
      (fun i m => (rustSignature S o0.hashFunction w o0.height.toNat seed i m).getD []) cs 0 (Nat.zero_le _)).2
    rw [← hxe] at this
    exact this
  have hsk0 : o0.sk = (keyOf S o0.hashFunction w o0.height.toNat (lenW_pos hw) seed).sk 0 := H.hsk
  rcases Nat.lt_or_ge x.2 (2 ^ o0.height.toNat) with hlt | hge
  · cases hsg : Rs.rustSig S o0.hashFunction w o0.height.toNat (keyOf S o0.hashFunction w o0.height.toNat (lenW_pos hw) seed) x.2 m with
    | none =>
      have hn := hsg
      rw [Rs.rustSig, Option.map_eq_none_iff] at hn
      rw [Rs.rs_sign_panic H b x.2 hlt m hn] at hsign
      cases hsign
    | some s =>
      have hn := hsg
      rw [Rs.rustSig] at hn
      obtain ⟨m', hm', rfl⟩ := Option.map_eq_some_iff.mp hn
      rw [Rs.rs_sign_ok H b x.2 hlt m m' hm'] at hsign
      cases hsign
      rw [rustSig_eq] at hsg
      obtain ⟨pk, g1, g2⟩ := rust_sig_accepted b' S seed o0.height o0.hashFunction w hw hh x.2 hlt m _ hsg o0.toXMSSBase 0 hsk0 rfl rfl
      obtain ⟨pk', g3, g4⟩ := rust_sig_accepted b' S seed o0.height o0.hashFunction w hw hh x.2 hlt m _ hsg
        (Rs.fastAt S (keyOf S o0.hashFunction w o0.height.toNat (lenW_pos hw) seed) o0 (x.2 + 1)).toXMSSBase (x.2 + 1) rfl rfl rfl
      refine ⟨pk, g1, ?_, g2⟩
      rw [← g1]
      have K := keyOf S o0.hashFunction w o0.height.toNat (lenW_pos hw) seed
      simp only [Rs.XMSSBase.getPk, Rs.XMSSBase.getRoot, Rs.XMSSBase.getPkSeed, Rs.XMSSBase.getDescriptorBytes, hsk0, Rs.fastAt]
      rw [Rs.sim_slice _ _ _ _ (KeyParts.root_slice _ _), Rs.sim_slice _ _ _ _ (KeyParts.root_slice _ _),
        Rs.sim_slice _ _ _ _ (KeyParts.ps_slice _ _), Rs.sim_slice _ _ _ _ (KeyParts.ps_slice _ _)]
  · have hxe : x.2 = 2 ^ o0.height.toNat := by omega
    rw [hxe, Rs.rs_sign_fail H b m] at hsign
    cases hsign

/-- C53. **Forgery by a signer.** A signature `XMSSFast` returns for a cut message is accepted by Rust for every other
message of the same length with the same first 40 (SHAKE128) or 8 (SHAKE256) bytes. -/
theorem C53_signed_forgery (b b' : Rs.Build) (S : Sha256) (seed : Bytes) (height : UInt8) (hf : HashFn) (w : Nat)
    (hw : w = 2 ∨ w = 4 ∨ w = 16 ∨ w = 256) (hs : seed.length = 48) (hh : GoodHeight height) (m m' : Bytes)
    (hc : rustCut hf m) (hl : m.length = m'.length) (hp : m.take (rustRoom hf) = m'.take (rustRoom hf)) :
    ∃ o sig o' pk, Rs.XMSSFast.new b S seed height hf w = .ok o ∧ o.sign b S m = .ret sig o' ∧ o.getPk = .ok pk ∧
      Rs.verify b' S m' sig pk w = .ret () m' := by
  obtain ⟨p, k, q, o0, e1, rfl, rfl, e4, e5, H⟩ := Rs.fast_new_rs (S := S) b seed height hf hw hs hh
  have hpos : 0 < 2 ^ o0.height.toNat := Nat.two_pow_pos _
  obtain ⟨y, hm⟩ : ∃ y, rustSigned o0.hashFunction (seedSignKey S o0.hashFunction w o0.height.toNat seed 0) m = some y :=
    ⟨_, rustSigned_cut hc _⟩
  have hsg := Rs.rs_sign_ok H b 0 hpos m _ hm
  rw [Rs.rs_fastAt_zero H] at hsg
  have hsig : rustSignature S o0.hashFunction w o0.height.toNat seed 0 m' = some (seedSignature S o0.hashFunction w o0.height.toNat seed 0 y) := by
    rw [← C52_sign_cut S o0.hashFunction w o0.height.toNat seed 0 m m' hc hl hp, rustSignature, hm]; rfl
  obtain ⟨pk, g1, g2⟩ := rust_sig_accepted b' S seed o0.height o0.hashFunction w hw hh 0 hpos m' _ hsig o0.toXMSSBase 0 H.hsk rfl rfl
  exact ⟨o0, _, _, pk, e1, hsg, g1, g2⟩

/-- C52. **Refinement of `XMSSBasic`.** On any history a new `XMSSBasic` (height at most 24) behaves like the unchecked
counter: `set_index` accepts every number, and `sign` with an index of `2^height` or more panics. In a build without
overflow checks this holds at height 4 for indices below 2^29 only and at height 6 for indices below 2^31; `C52_release_history`
says what happens at all others. -/
theorem C52_basic_history (b : Rs.Build) (S : Sha256) (seed : Bytes) (height : UInt8) (hf : HashFn) (w : Nat)
    (hw : w = 2 ∨ w = 4 ∨ w = 16 ∨ w = 256) (hs : seed.length = 48) (hh : GoodHeight height) (h24 : height.toNat ≤ 24)
    (o0 : Rs.XMSSBasic) (hnew : Rs.XMSSBasic.new b S seed height hf w = .ok o0) (cs : List Call)
    (hb : b = .debug ∨ 8 ≤ height.toNat ∨ ∀ n, Call.setIndex n ∈ cs → n.toNat < 2 ^ (25 + height.toNat)) :
    match partialLoose (2 ^ height.toNat) (rustSignature S hf w height.toNat seed) 0 cs with
    | some (rs, i) => ∃ o, runCalls (Rs.XMSSBasic.call b S) o0 cs = some (rs, o) ∧ o.getIndex = .ok i
    | none => runCalls (Rs.XMSSBasic.call b S) o0 cs = none := by
  rw [Rs.basic_new_rs b seed height hf hw hs hh] at hnew
  cases hnew
  have h4 := hh.1
  let K := keyOf S hf w height.toNat (lenW_pos hw) seed
  let o0 : Rs.XMSSBasic := { hashFunction := hf, height := height, sk := K.sk 0, seed := seed, params := ⟨Rs.wotsParams w, height.toNat⟩ }
  have hr := Rs.basic_run_rs (S := S) b hw o0 rfl (show 1 ≤ height.toNat by omega) h24 K rfl cs 0
    (by omega) (by
      rcases hb with h | h | h
      · exact Or.inl h
      · refine Or.inr ⟨Nat.two_pow_pos _, fun n _ => Nat.lt_of_lt_of_le n.toNat_lt ?_⟩
        exact Nat.pow_le_pow_right (by omega) (show 32 ≤ 25 + height.toNat by omega)
      · exact Or.inr ⟨Nat.two_pow_pos _, h⟩)
  have hpw : 2 ^ height.toNat ≤ 2 ^ 24 := Nat.pow_le_pow_right (by omega) h24
  have hrange : ∀ (cs : List Call) (i : Nat) x, i < 2 ^ 32 →
      partialLoose (2 ^ height.toNat) (rustSignature S hf w height.toNat seed) i cs = some x → x.2 < 2 ^ 32 := by
    intro cs
    induction cs with
    | nil => intro i x hi h; cases h; exact hi
    | cons c cs ih =>
      intro i x hi h
      cases c with
      | setIndex n =>
        rw [partialLoose] at h
        obtain ⟨y, hy, rfl⟩ := Option.map_eq_some_iff.mp h
        exact ih _ y n.toNat_lt hy
      | sign m =>
        rw [partialLoose] at h
        split at h
        · split at h
          · cases h
          · obtain ⟨y, hy, rfl⟩ := Option.map_eq_some_iff.mp h
            exact ih _ y (by omega) hy
        · cases h
  rw [rustSig_eq] at hr
  cases hp : partialLoose (2 ^ height.toNat) (rustSignature S hf w height.toNat seed) 0 cs with
  | none =>
    rw [show partialLoose (2 ^ o0.height.toNat) (rustSignature S o0.hashFunction w o0.height.toNat seed) 0 cs = none from hp] at hr
    exact hr
  | some x =>
    rw [show partialLoose (2 ^ o0.height.toNat) (rustSignature S o0.hashFunction w o0.height.toNat seed) 0 cs = some x from hp] at hr
    refine ⟨_, hr, ?_⟩
    exact Rs.getIndex_sim (Rs.basicAt K o0 x.2).toXMSSBase o0.params x.2 (K.getIndex _ x.2 rfl (hrange cs 0 x (by omega) hp))

/-- C52. One-time key reuse with `XMSSBasic`, refuting C16 for it: sign, `set_index(0)`, sign. -/
theorem C52_basic_reuse_refuted (b : Rs.Build) (S : Sha256) (seed : Bytes) (height : UInt8) (hf : HashFn) (w : Nat)
    (hw : w = 2 ∨ w = 4 ∨ w = 16 ∨ w = 256) (hs : seed.length = 48) (hh : GoodHeight height) (h24 : height.toNat ≤ 24)
    (m1 m2 : Bytes) (h1 : ¬ rustLong hf m1) (h2 : ¬ rustLong hf m2) :
    ∃ o0 o s1 s2, Rs.XMSSBasic.new b S seed height hf w = .ok o0 ∧
      runCalls (Rs.XMSSBasic.call b S) o0 [.sign m1, .setIndex 0, .sign m2] = some ([.sig s1, .index 0, .sig s2], o) ∧
      sigIndex s1 = 0 ∧ sigIndex s2 = 0 := by
  have hnew := Rs.basic_new_rs (S := S) b seed height hf hw hs hh
  have hr := C52_basic_history b S seed height hf w hw hs hh h24 _ hnew [.sign m1, .setIndex 0, .sign m2]
    (Or.inr (Or.inr (by intro n hn; simp at hn; subst hn; exact Nat.two_pow_pos _)))
  have hpos : 0 < 2 ^ height.toNat := Nat.two_pow_pos _
  have key : ∀ m, ¬ rustLong hf m → ∃ m', rustSignature S hf w height.toNat seed 0 m = some (seedSignature S hf w height.toNat seed 0 m') := by
    intro m hm
    cases hx : rustSigned hf (seedSignKey S hf w height.toNat seed 0) m with
    | none =>
      exact absurd ((C52_sign_panics_iff S hf w height.toNat seed 0 m).mp (by rw [rustSignature, hx]; rfl)) hm
    | some m' => exact ⟨m', by rw [rustSignature, hx]; rfl⟩
  obtain ⟨m1', e1⟩ := key m1 h1
  obtain ⟨m2', e2⟩ := key m2 h2
  simp only [partialLoose, if_pos hpos, e1, show (0 : UInt32).toNat = 0 from rfl, e2, Option.map_some] at hr
  obtain ⟨o, ho, _⟩ := hr
  exact ⟨_, o, _, _, hnew, ho, sigIndex_signature S hf w _ _ _ _ 0 m1' (by omega), sigIndex_signature S hf w _ _ _ _ 0 m2' (by omega)⟩

/-- C52. `XMSSBasic` of height 26, 28 or 30 can be built but not used: `sign` panics at once, in both build modes. -/
theorem C52_basic_tall_refuted (b : Rs.Build) (S : Sha256) (seed : Bytes) (height : UInt8) (hf : HashFn) (w : Nat)
    (hw : w = 2 ∨ w = 4 ∨ w = 16 ∨ w = 256) (hs : seed.length = 48) (hh : GoodHeight height) (h26 : 26 ≤ height.toNat) (m : Bytes) :
    ∃ o, Rs.XMSSBasic.new b S seed height hf w = .ok o ∧ o.sign b S m = .panic := by
  obtain ⟨k, q, hsp, h1⟩ := Rs.specParams_rs hw
  let K := keyOf S hf w height.toNat (lenW_pos hw) seed
  let o0 : Rs.XMSSBasic := { hashFunction := hf, height := height, sk := K.sk 0, seed := seed, params := ⟨Rs.wotsParams w, height.toNat⟩ }
  refine ⟨o0, Rs.basic_new_rs b seed height hf hw hs hh, ?_⟩
  exact Rs.basic_sign_panic_rs (S := S) b hsp o0 rfl K 0 (by omega) m (fun b' c' d' =>
    Rs.computeAuthpath_tall_rs b hf ⟨Rs.wotsParams w, height.toNat⟩ K.skSeed K.ps K.l1 K.l3 h1 h26 hh.2.1 0 0 0 b' c' d')

/-- Two messages a SHAKE128 signer cannot tell apart: 45 bytes, different in the last one. -/
example : ∃ o sig o' pk, Rs.XMSSFast.new .debug toySha zeroSeed 4 .shake_128 16 = .ok o ∧
    o.sign .debug toySha (List.replicate 44 0 ++ [1]) = .ret sig o' ∧ o.getPk = .ok pk ∧
    Rs.verify .release toySha (List.replicate 44 0 ++ [2]) sig pk 16 = .ret () (List.replicate 44 0 ++ [2]) :=
  C53_signed_forgery .debug .release toySha zeroSeed 4 .shake_128 16 (by omega) (by decide) goodHeight4 _ _
    (by unfold rustCut; decide) (by decide) (by decide)

example : rustShort .shake_256 [1, 2, 3] ∧ rustLong .shake_128 (List.replicate 208 0) ∧ rustLong .shake_256 (List.replicate 144 0) := by
  refine ⟨?_, ?_, ?_⟩ <;> simp only [rustShort, rustLong, rustRoom, List.length_replicate] <;> decide

example : ∃ o rs o', Rs.XMSSFast.new .release toySha zeroSeed 4 .shake_128 16 = .ok o ∧
    runCalls (Rs.XMSSFast.call .release toySha) o [.sign [1], .setIndex 0, .setIndex 5, .sign [2]] = some (rs, o') := by
  obtain ⟨o, c, h, hc, _⟩ := C51_fast_same_key .release toySha zeroSeed 4 .shake_128 (by decide) goodHeight4
  obtain ⟨rs, o', _, _, h1, _⟩ := C52_same_as_cpp .release toySha zeroSeed 4 .shake_128 (by decide) goodHeight4 o c h hc
    [.sign [1], .setIndex 0, .setIndex 5, .sign [2]] (by
      intro m hm
      simp at hm
      rcases hm with rfl | rfl <;> (simp only [rustShort, rustRoom]; decide))
  exact ⟨o, rs, o', h, h1⟩

example : ∃ o, Rs.XMSSBasic.new .release toySha zeroSeed 26 .sha2_256 4 = .ok o ∧ o.sign .release toySha [1] = .panic :=
  C52_basic_tall_refuted .release toySha zeroSeed 26 .sha2_256 4 (by omega) (by decide) (by unfold GoodHeight; decide) (by decide) [1]

end Qrl.Props
