import Verif.Proof.RustTall
import Verif.Props.RustBasicAny
/-!
# C74: heights of 32 and more in a Rust build without overflow checks
-/

namespace Qrl.Props

open Spec

/-- The tree height a build without overflow checks works with: `1 << height` shifts by `height mod 32`. -/
def lowHeight (height : UInt8) : UInt8 := UInt8.ofNat (height.toNat % 32)

theorem lowHeight_toNat (height : UInt8) : (lowHeight height).toNat = height.toNat % 32 := by
  rw [lowHeight, UInt8.toNat_ofNat', Nat.mod_eq_of_lt (by omega)]

theorem lowHeight_good {height : UInt8} (he : height.toNat % 2 = 0) (h4 : 4 ≤ height.toNat % 32) : GoodHeight (lowHeight height) := by
  rw [GoodHeight, lowHeight_toNat]; omega

/-- `XMSSFast::new` without overflow checks, for every even height from 4 on. -/
theorem fast_new_rel (S : Sha256) (seed : Bytes) (height : UInt8) (hf : HashFn) (w : Nat) (hw : RangeW w) (hs : seed.length = 48)
    (h4 : 4 ≤ height.toNat) (he : height.toNat % 2 = 0) :
    ∃ o, Rs.XMSSFast.new .release S seed height hf w = .ok o ∧ o.hashFunction = hf ∧ o.height = height ∧ o.seed = seed ∧
      o.params = ⟨Rs.wotsParams w, height.toNat⟩ ∧
      o.sk = (keyP S hf w (rustLen w) (height.toNat % 32) (Rs.rustLen_pos hw) seed).sk 0 := by
  by_cases h32 : 32 ≤ height.toNat
  · obtain ⟨st, -, e⟩ := Rs.fast_new_tall (S := S) seed height hf hw hs h32 he
    exact ⟨_, e, rfl, rfl, rfl, rfl, rfl⟩
  · obtain ⟨o, e1, e2, e3, e4, H⟩ := Rs.fast_new_rsAny (S := S) .release seed height hf hw hs ⟨h4, by omega, he⟩
    refine ⟨o, e1, e2, e3, e4, by rw [H.hop, e3], ?_⟩
    rw [Nat.mod_eq_of_lt (show height.toNat < 32 by omega)]
    exact H.hsk

/-- `XMSSBasic::new` without overflow checks, for every even height from 4 on. -/
theorem basic_new_rel (S : Sha256) (seed : Bytes) (height : UInt8) (hf : HashFn) (w : Nat) (hw : RangeW w) (hs : seed.length = 48)
    (h4 : 4 ≤ height.toNat) (he : height.toNat % 2 = 0) :
    Rs.XMSSBasic.new .release S seed height hf w =
      .ok { hashFunction := hf, height := height, seed := seed, params := ⟨Rs.wotsParams w, height.toNat⟩
            sk := (keyP S hf w (rustLen w) (height.toNat % 32) (Rs.rustLen_pos hw) seed).sk 0 } := by
  by_cases h32 : 32 ≤ height.toNat
  · exact Rs.basic_new_tall seed height hf hw hs h32 he
  · rw [Rs.basic_new_rsAny .release seed height hf hw hs ⟨h4, by omega, he⟩]
    rw [Nat.mod_eq_of_lt (show height.toNat < 32 by omega)]

/-- The descriptor bytes only hold the height modulo 32. -/
theorem descBytes_mod (hf : HashFn) {h h' : UInt8} (hm : h.toNat % 32 = h'.toNat % 32) :
    Rs.Descriptor.getBytes ⟨hf, h⟩ = Rs.Descriptor.getBytes ⟨hf, h'⟩ := by
  rw [rs_getBytes, rs_getBytes]
  simp only
  rw [show h.toNat / 2 % 16 = h'.toNat / 2 % 16 by omega]

/-- Everything a caller can read from two objects that differ in the height only, by a multiple of 32. -/
theorem same_view (S : Sha256) {o o' : Rs.XMSSBase} (hsk : o.sk = o'.sk) (hf : o.hashFunction = o'.hashFunction)
    (hsd : o.seed = o'.seed) (hm : o.height.toNat % 32 = o'.height.toNat % 32) :
    o.getPk = o'.getPk ∧ o.getExtendedSeed = o'.getExtendedSeed ∧ o.getAddress S = o'.getAddress S := by
  have hd : o.getDescriptorBytes = o'.getDescriptorBytes := by
    rw [Rs.XMSSBase.getDescriptorBytes, Rs.XMSSBase.getDescriptorBytes, hf]; exact descBytes_mod _ hm
  have hp : o.getPk = o'.getPk := by
    rw [Rs.XMSSBase.getPk, Rs.XMSSBase.getPk, Rs.XMSSBase.getRoot, Rs.XMSSBase.getRoot, Rs.XMSSBase.getPkSeed,
      Rs.XMSSBase.getPkSeed, hsk, hd]
  refine ⟨hp, ?_, ?_⟩
  · rw [Rs.XMSSBase.getExtendedSeed, Rs.XMSSBase.getExtendedSeed, hd, hsd]
  · rw [Rs.XMSSBase.getAddress, Rs.XMSSBase.getAddress, hp]

/-- The public key of an object with a complete secret key. -/
theorem pk_exists {o : Rs.XMSSBase} {K : KeyParts} {i : Nat} (hsk : o.sk = K.sk i) :
    o.getPk = .ok (o.getDescriptorBytes ++ K.root ++ K.ps) := by
  have h1 := Rs.sim_slice _ _ _ _ (K.root_slice i)
  have h2 := Rs.sim_slice _ _ _ _ (K.ps_slice i)
  rw [Rs.XMSSBase.getPk, Rs.XMSSBase.getRoot, Rs.XMSSBase.getPkSeed, hsk, h1, Rs.Res.ok_bind, h2, Rs.Res.ok_bind]

/-- C74, refuted: the natural property that wallets of different heights are different wallets. Without overflow checks, from
one seed, hash function and parameter, two even heights (from 4 on) that agree modulo 32 give in both signers the same secret key,
public key, extended seed and address, and the same number of signatures, 2^(height mod 32). -/
theorem C74_distinct_heights_refuted (S : Sha256) (seed : Bytes) (h h' : UInt8) (hf : HashFn) (w : Nat) (hw : RangeW w)
    (hs : seed.length = 48) (h4 : 4 ≤ h.toNat) (he : h.toNat % 2 = 0) (h4' : 4 ≤ h'.toNat)
    (hm : h.toNat % 32 = h'.toNat % 32) :
    (∃ o o' pk, Rs.XMSSFast.new .release S seed h hf w = .ok o ∧ Rs.XMSSFast.new .release S seed h' hf w = .ok o' ∧
      o.getPk = .ok pk ∧ o'.getPk = .ok pk ∧ o.sk = o'.sk ∧ o.getExtendedSeed = o'.getExtendedSeed ∧
      o.getAddress S = o'.getAddress S ∧ o.getNumberSignatures .release = .ok (2 ^ (h.toNat % 32)) ∧
      o'.getNumberSignatures .release = .ok (2 ^ (h.toNat % 32))) ∧
    (∃ o o' pk, Rs.XMSSBasic.new .release S seed h hf w = .ok o ∧ Rs.XMSSBasic.new .release S seed h' hf w = .ok o' ∧
      o.getPk = .ok pk ∧ o'.getPk = .ok pk ∧ o.sk = o'.sk ∧ o.getExtendedSeed = o'.getExtendedSeed ∧
      o.getAddress S = o'.getAddress S ∧ o.getNumberSignatures .release = .ok (2 ^ (h.toNat % 32)) ∧
      o'.getNumberSignatures .release = .ok (2 ^ (h.toNat % 32))) := by
  have he' : h'.toNat % 2 = 0 := by omega
  have hn : ∀ x : UInt8, Rs.shl1 .release x.toNat = .ok (2 ^ (x.toNat % 32)) := by
    intro x
    by_cases hx : 32 ≤ x.toNat
    · exact Rs.shl1_tall hx
    · rw [Rs.shl1_lt .release (by omega), Nat.mod_eq_of_lt (show x.toNat < 32 by omega)]
  constructor
  · obtain ⟨o, e1, e2, e3, e4, -, e6⟩ := fast_new_rel S seed h hf w hw hs h4 he
    obtain ⟨o', f1, f2, f3, f4, -, f6⟩ := fast_new_rel S seed h' hf w hw hs h4' he'
    rw [← hm] at f6
    obtain ⟨g1, g2, g3⟩ := same_view S (o := o.toXMSSBase) (o' := o'.toXMSSBase) (e6.trans f6.symm) (e2.trans f2.symm)
      (e4.trans f4.symm) (by rw [e3, f3]; exact hm)
    have hp := pk_exists (o := o.toXMSSBase) e6
    refine ⟨o, o', _, e1, f1, hp, g1 ▸ hp, e6.trans f6.symm, g2, g3, ?_, ?_⟩
    · rw [Rs.XMSSBase.getNumberSignatures, e3]; exact hn h
    · rw [Rs.XMSSBase.getNumberSignatures, f3, hm]; exact hn h'
  · have e1 := basic_new_rel S seed h hf w hw hs h4 he
    have f1 := basic_new_rel S seed h' hf w hw hs h4' he'
    rw [← hm] at f1
    generalize ho : (Rs.XMSSBasic.mk (Rs.XMSSBase.mk hf h _ seed) _) = o at e1
    generalize ho' : (Rs.XMSSBasic.mk (Rs.XMSSBase.mk hf h' _ seed) _) = o' at f1
    obtain ⟨g1, g2, g3⟩ := same_view S (o := o.toXMSSBase) (o' := o'.toXMSSBase) (by rw [← ho, ← ho']) (by rw [← ho, ← ho'])
      (by rw [← ho, ← ho']) (by rw [← ho, ← ho']; exact hm)
    have hp := pk_exists (o := o.toXMSSBase) (K := keyP S hf w (rustLen w) (h.toNat % 32) (Rs.rustLen_pos hw) seed) (i := 0) (by rw [← ho])
    refine ⟨o, o', _, e1, f1, hp, g1 ▸ hp, by rw [← ho, ← ho'], g2, g3, ?_, ?_⟩
    · rw [Rs.XMSSBase.getNumberSignatures, ← ho]; exact hn h
    · rw [Rs.XMSSBase.getNumberSignatures, ← ho', hm]; exact hn h'

/-- C74, refuted: the natural property that an object is recovered from its extended seed. For an even height from 32 on,
`from_extended_seed` of the extended seed gives in either kind of build the object of height `height mod 32`; when that is 0 or 2
it is an error. It is never the object of that height. -/
theorem C74_recovery_refuted (b : Rs.Build) (S : Sha256) (seed : Bytes) (height : UInt8) (hf : HashFn) (hs : seed.length = 48)
    (h32 : 32 ≤ height.toNat) (he : height.toNat % 2 = 0) :
    ∃ o, Rs.XMSSFast.new .release S seed height hf 16 = .ok o ∧
      (4 ≤ height.toNat % 32 → ∃ o', Rs.XMSSFast.fromExtendedSeed b S o.getExtendedSeed = .ok o' ∧
        o'.height.toNat = height.toNat % 32 ∧ o'.hashFunction = hf ∧ o'.seed = seed ∧ o'.sk = o.sk) ∧
      (height.toNat % 32 < 4 → Rs.XMSSFast.fromExtendedSeed b S o.getExtendedSeed = .err .invalidArgument) ∧
      Rs.XMSSFast.fromExtendedSeed b S o.getExtendedSeed ≠ .ok o := by
  have hw : RangeW 16 := by decide
  obtain ⟨o, e1, e2, e3, e4, -, e6⟩ := fast_new_rel S seed height hf 16 hw hs (by omega) he
  have hlow := lowHeight_toNat height
  have hext : o.getExtendedSeed = Rs.Descriptor.getBytes ⟨hf, lowHeight height⟩ ++ seed := by
    rw [Rs.XMSSBase.getExtendedSeed, Rs.XMSSBase.getDescriptorBytes, e2, e3, e4,
      descBytes_mod hf (h := height) (h' := lowHeight height) (by rw [hlow]; omega)]
  have hrec : Rs.XMSSFast.fromExtendedSeed b S o.getExtendedSeed = Rs.XMSSFast.new b S seed (lowHeight height) hf 16 := by
    rw [hext]
    exact C51_from_extended_seed b S ⟨hf, lowHeight height⟩ _ seed
      (C54_roundtrip _ (by simp only [hlow]; omega) (by simp only [hlow]; omega)) hs
  have hbad : height.toNat % 32 < 4 → Rs.XMSSFast.new b S seed (lowHeight height) hf 16 = .err .invalidArgument := fun h =>
    (C51_new_refuses b S seed (lowHeight height) hf 16 (Or.inr (Or.inl (by rw [hlow]; exact h)))).1
  have hgood : 4 ≤ height.toNat % 32 → ∃ o', Rs.XMSSFast.new b S seed (lowHeight height) hf 16 = .ok o' ∧
        o'.height.toNat = height.toNat % 32 ∧ o'.hashFunction = hf ∧ o'.seed = seed ∧ o'.sk = o.sk := by
    intro h4
    obtain ⟨o', f1, f2, f3, f4, H⟩ := Rs.fast_new_rsAny (S := S) b seed (lowHeight height) hf hw hs (lowHeight_good he h4)
    refine ⟨o', f1, by rw [f3, hlow], f2, f4, ?_⟩
    rw [H.hsk, e6]
    simp only [hlow]
  refine ⟨o, e1, hrec ▸ hgood, hrec ▸ hbad, ?_⟩
  rw [hrec]
  intro h
  by_cases h4 : 4 ≤ height.toNat % 32
  · obtain ⟨o', f1, f2, -⟩ := hgood h4
    rw [f1] at h
    cases h
    rw [e3] at f2
    omega
  · rw [hbad (by omega)] at h
    cases h

/-! ## Signatures of tall objects are never accepted -/

theorem fillBuffer_length {n : Nat} {d s : Bytes} (h : Rs.fillBuffer n d = .ok s) : s.length = n := by
  rw [Rs.fillBuffer] at h
  split at h
  · cases h
    rw [List.length_append, List.length_replicate]; omega
  · cases h

theorem ofRes_ret {σ α : Type} {s s' : σ} {r : Rs.Res (α × σ)} {a : α} (h : Rs.Step.ofRes s r = .ret a s') : r = .ok (a, s') := by
  cases r with
  | ok x => obtain ⟨x1, x2⟩ := x; cases h; rfl
  | err e => cases h
  | panic => cases h

theorem ofRes_fail {σ α : Type} {s s' : σ} {r : Rs.Res (α × σ)} {e : Rs.Err} (h : Rs.Step.ofRes s r = .fail e s') : s' = s := by
  cases r with
  | ok x => obtain ⟨x1, x2⟩ := x; cases h
  | err e => cases h; rfl
  | panic => cases h

/-- A call keeps height and parameters; a signature has the announced size. -/
theorem fast_call_keeps {b : Rs.Build} {S : Sha256} {o o' : Rs.XMSSFast} {c : Call} {r : Reply}
    (h : Rs.XMSSFast.call b S o c = some (r, o')) :
    o'.height = o.height ∧ o'.params = o.params ∧ ∀ s, r = .sig s → s.length = o.getSignatureSize o.params.wots.w := by
  have hset : ∀ n x (o1 : Rs.XMSSFast), o.setIndex b S n = .ret x o1 → o1.height = o.height ∧ o1.params = o.params := by
    intro n x o1 h
    have := ofRes_ret h
    obtain ⟨y, -, h2⟩ := Rs.Res.bind_eq_ok.mp this
    obtain ⟨y1, y2⟩ := y
    cases h2
    exact ⟨rfl, rfl⟩
  cases c with
  | setIndex n =>
    rw [Rs.XMSSFast.call] at h
    cases hx : o.setIndex b S n.toNat with
    | ret i o1 =>
      rw [hx] at h; cases h
      exact ⟨(hset _ _ _ hx).1, (hset _ _ _ hx).2, fun s hs => by cases hs⟩
    | fail e o1 =>
      rw [hx] at h; cases h
      rw [ofRes_fail hx]
      exact ⟨rfl, rfl, fun s hs => by cases e <;> cases hs⟩
    | panic => rw [hx] at h; cases h
  | sign m =>
    rw [Rs.XMSSFast.call, Rs.XMSSFast.sign] at h
    cases hi : o.getIndex with
    | err e => rw [hi] at h; cases h
    | panic => rw [hi] at h; cases h
    | ok i =>
      rw [hi] at h
      dsimp only at h
      cases hx : o.setIndex b S i with
      | panic => rw [hx] at h; cases h
      | fail e o1 =>
        rw [hx] at h; cases h
        rw [ofRes_fail hx]
        exact ⟨rfl, rfl, fun s hs => by cases e <;> cases hs⟩
      | ret j o1 =>
        rw [hx] at h
        dsimp only at h
        obtain ⟨k1, k2⟩ := hset _ _ _ hx
        split at h
        · rename_i s o2 hy
          cases h
          obtain ⟨⟨d, q⟩, -, h2⟩ := Rs.Res.bind_eq_ok.mp (ofRes_ret hy)
          obtain ⟨sig, h3, h4⟩ := Rs.Res.bind_eq_ok.mp h2
          cases h4
          refine ⟨k1, k2, fun s hs => ?_⟩
          cases hs
          rw [fillBuffer_length h3, Rs.XMSSBase.getSignatureSize, Rs.XMSSBase.getSignatureSize, k1, k2]
        · rename_i e o2 hy
          cases h
          rw [ofRes_fail hy]
          exact ⟨k1, k2, fun s hs => by cases e <;> cases hs⟩
        · cases h

theorem basic_call_keeps {b : Rs.Build} {S : Sha256} {o o' : Rs.XMSSBasic} {c : Call} {r : Reply}
    (h : Rs.XMSSBasic.call b S o c = some (r, o')) :
    o'.height = o.height ∧ o'.params = o.params ∧ ∀ s, r = .sig s → s.length = o.getSignatureSize o.params.wots.w := by
  cases c with
  | setIndex n =>
    rw [Rs.XMSSBasic.call] at h
    cases hx : o.toXMSSBase.setIndex n.toNat with
    | ok x =>
      obtain ⟨i, base⟩ := x
      rw [hx] at h; cases h
      refine ⟨?_, rfl, fun s hs => by cases hs⟩
      rw [Rs.XMSSBase.setIndex] at hx
      obtain ⟨k3, -, hx⟩ := Rs.Res.bind_eq_ok.mp hx
      obtain ⟨k2, -, hx⟩ := Rs.Res.bind_eq_ok.mp hx
      obtain ⟨k1, -, hx⟩ := Rs.Res.bind_eq_ok.mp hx
      obtain ⟨k0, -, hx⟩ := Rs.Res.bind_eq_ok.mp hx
      obtain ⟨i', -, hx⟩ := Rs.Res.bind_eq_ok.mp hx
      cases hx
      rfl
    | err e =>
      rw [hx] at h; cases h
      exact ⟨rfl, rfl, fun s hs => by cases e <;> cases hs⟩
    | panic => rw [hx] at h; cases h
  | sign m =>
    rw [Rs.XMSSBasic.call] at h
    cases hx : o.sign b S m with
    | ok x =>
      obtain ⟨s, o1⟩ := x
      rw [hx] at h; cases h
      rw [Rs.XMSSBasic.sign] at hx
      obtain ⟨⟨sk, d⟩, -, hx⟩ := Rs.Res.bind_eq_ok.mp hx
      obtain ⟨sig, h3, hx⟩ := Rs.Res.bind_eq_ok.mp hx
      cases hx
      refine ⟨rfl, rfl, fun s hs => ?_⟩
      cases hs
      exact fillBuffer_length h3
    | err e =>
      rw [hx] at h; cases h
      exact ⟨rfl, rfl, fun s hs => by cases e <;> cases hs⟩
    | panic => rw [hx] at h; cases h

theorem signatures_length {σ : Type} (call : σ → Call → Option (Reply × σ)) (size : σ → Nat)
    (hk : ∀ o c r o', call o c = some (r, o') → size o' = size o ∧ ∀ s, r = .sig s → s.length = size o) (cs : List Call) :
    ∀ (o : σ) (rs : List Reply) (o' : σ), runCalls call o cs = some (rs, o') → ∀ s ∈ signatures rs, s.length = size o := by
  induction cs with
  | nil => intro o rs o' h s hs; cases h; cases hs
  | cons c cs ih =>
    intro o rs o' h s hs
    rw [runCalls] at h
    cases hx : call o c with
    | none => rw [hx] at h; cases h
    | some x =>
      obtain ⟨r, o1⟩ := x
      rw [hx] at h
      dsimp only at h
      obtain ⟨k1, k2⟩ := hk _ _ _ _ hx
      cases hy : runCalls call o1 cs with
      | none => rw [hy] at h; cases h
      | some y =>
        obtain ⟨rs1, o2⟩ := y
        rw [hy] at h
        cases h
        have hrest : ∀ s ∈ signatures rs1, s.length = size o := fun s hs => by rw [← k1]; exact ih _ _ _ hy s hs
        cases r with
        | sig t =>
          rw [signatures] at hs
          rcases List.mem_cons.mp hs with rfl | hs
          · exact k2 _ rfl
          · exact hrest s hs
        | index i => exact hrest s hs
        | threw e => exact hrest s hs

/-- `verify` refuses a signature of the announced size of a tall object. -/
theorem verify_tall (b : Rs.Build) (S : Sha256) (hf : HashFn) (height : UInt8) (w : Nat) (h32 : 32 ≤ height.toNat)
    (he : height.toNat % 2 = 0) (msg sig rest : Bytes)
    (hr : rest.length = 64) (hsig : sig.length = Rs.signatureBaseSize w + height.toNat * 32) :
    Rs.verify b S msg sig (Rs.Descriptor.getBytes ⟨hf, height⟩ ++ rest) w = .fail .invalidArgument msg := by
  have hlow := lowHeight_toNat height
  have hu := height.toNat_lt
  rw [descBytes_mod hf (h := height) (h' := lowHeight height) (by rw [hlow]; omega)]
  have hd : (Rs.Descriptor.getBytes ⟨hf, lowHeight height⟩).length = 3 := by rw [rs_getBytes]; rfl
  have hlen : (Rs.Descriptor.getBytes ⟨hf, lowHeight height⟩ ++ rest).length = 67 := by rw [List.length_append, hd, hr]
  have hdesc : Rs.Descriptor.fromExtendedPk (Rs.Descriptor.getBytes ⟨hf, lowHeight height⟩ ++ rest) = .ok ⟨hf, lowHeight height⟩ := by
    rw [Rs.Descriptor.fromExtendedPk, if_neg (by rw [hlen]; omega), List.take_left' hd]
    exact C54_roundtrip _ (by simp only [hlow]; omega) (by simp only [hlow]; omega)
  have hhs : Rs.getHeightFromSigSize sig.length w = .ok height := by
    have hb : Rs.signatureBaseSize w = 4 + 32 + rustLen w * 32 := rfl
    rw [Rs.getHeightFromSigSize, if_neg (by omega), if_neg (by omega)]
    congr 1
    apply UInt8.toNat_inj.mp
    rw [UInt8.toNat_ofNat', hsig]
    omega
  rw [Rs.verify, if_neg (by rw [hlen]; omega), if_neg (by omega), hdesc]
  dsimp only
  rw [hhs]
  dsimp only
  rw [if_pos]
  right
  intro h
  have := congrArg UInt8.toNat h
  rw [hlow] at this
  omega

/-- C74. No signature of an object of height 32 or more is ever accepted: in a build without overflow checks, whatever calls are
made on a new `XMSSFast` or `XMSSBasic` of such a height, every signature they return is refused with `InvalidArgument`, in either
kind of build, for every message, under the object's own public key and parameter. -/
theorem C74_never_verifies (S : Sha256) (seed : Bytes) (height : UInt8) (hf : HashFn) (w : Nat) (hw : RangeW w)
    (hs : seed.length = 48) (h32 : 32 ≤ height.toNat) (he : height.toNat % 2 = 0) :
    (∃ o pk, Rs.XMSSFast.new .release S seed height hf w = .ok o ∧ o.getPk = .ok pk ∧
      ∀ (cs : List Call) (rs : List Reply) (o' : Rs.XMSSFast), runCalls (Rs.XMSSFast.call .release S) o cs = some (rs, o') →
        ∀ sig ∈ signatures rs, ∀ (b : Rs.Build) (msg : Bytes), Rs.verify b S msg sig pk w = .fail .invalidArgument msg) ∧
    (∃ o pk, Rs.XMSSBasic.new .release S seed height hf w = .ok o ∧ o.getPk = .ok pk ∧
      ∀ (cs : List Call) (rs : List Reply) (o' : Rs.XMSSBasic), runCalls (Rs.XMSSBasic.call .release S) o cs = some (rs, o') →
        ∀ sig ∈ signatures rs, ∀ (b : Rs.Build) (msg : Bytes), Rs.verify b S msg sig pk w = .fail .invalidArgument msg) := by
  let K := keyP S hf w (rustLen w) (height.toNat % 32) (Rs.rustLen_pos hw) seed
  have hK : (K.root ++ K.ps).length = 64 := by rw [List.length_append, K.l4, K.l3]
  constructor
  · obtain ⟨o, e1, e2, e3, e4, e5, e6⟩ := fast_new_rel S seed height hf w hw hs (by omega) he
    refine ⟨o, _, e1, pk_exists (K := K) e6, fun cs rs o' hr sig hsig b msg => ?_⟩
    have hl := signatures_length (Rs.XMSSFast.call .release S) (fun o => o.getSignatureSize o.params.wots.w) (by
      intro o c r o' h
      obtain ⟨k1, k2, k3⟩ := fast_call_keeps h
      exact ⟨by simp only [Rs.XMSSBase.getSignatureSize, k1, k2], k3⟩) cs o rs o' hr sig hsig
    simp only [Rs.XMSSBase.getSignatureSize, e5, e3] at hl
    rw [Rs.XMSSBase.getDescriptorBytes, e2, e3, List.append_assoc]
    exact verify_tall b S hf height w h32 he msg sig _ hK hl
  · have e1 := basic_new_rel S seed height hf w hw hs (by omega) he
    refine ⟨_, _, e1, pk_exists (K := K) rfl, fun cs rs o' hr sig hsig b msg => ?_⟩
    have hl := signatures_length (Rs.XMSSBasic.call .release S) (fun o => o.getSignatureSize o.params.wots.w) (by
      intro o c r o' h
      obtain ⟨k1, k2, k3⟩ := basic_call_keeps h
      exact ⟨by simp only [Rs.XMSSBase.getSignatureSize, k1, k2], k3⟩) cs _ rs o' hr sig hsig
    rw [Rs.XMSSBase.getDescriptorBytes, List.append_assoc]
    exact verify_tall b S hf height w h32 he msg sig _ hK hl

/-! ## They spend the one-time keys of the low height -/

/-- C74. The simple signer of an even height from 32 on, with `m = height mod 32` from 2 to 24, behaves on every history that
stays below index `2^m` like the simple signer of height `m`, with `32 * (height - m)` more bytes after each signature: it spends
the one-time keys of that other wallet. -/
theorem C74_basic_signs (S : Sha256) (seed : Bytes) (height : UInt8) (hf : HashFn) (w : Nat) (hw : RangeW w)
    (hs : seed.length = 48) (h32 : 32 ≤ height.toNat) (he : height.toNat % 2 = 0) (h1 : 2 ≤ height.toNat % 32)
    (h24 : height.toNat % 32 ≤ 24) :
    ∃ (o0 : Rs.XMSSBasic) (extra : Nat → Bytes), Rs.XMSSBasic.new .release S seed height hf w = .ok o0 ∧
      (∀ i, (extra i).length = 32 * (height.toNat - height.toNat % 32)) ∧
      ∀ (cs : List Call) (rs : List Reply) (i : Nat),
        partialLoose (2 ^ (height.toNat % 32))
          (fun i m => (rustSeedSignature .release S hf w (height.toNat % 32) seed i m).map (· ++ extra i)) 0 cs = some (rs, i) →
        ∃ o, runCalls (Rs.XMSSBasic.call .release S) o0 cs = some (rs, o) ∧ o.getIndex = .ok i := by
  have e1 := basic_new_rel S seed height hf w hw hs (by omega) he
  let K := keyP S hf w (rustLen w) (height.toNat % 32) (Rs.rustLen_pos hw) seed
  generalize ho : (Rs.XMSSBasic.mk (Rs.XMSSBase.mk hf height _ seed) _) = o0 at e1
  have ho1 : o0.hashFunction = hf := by rw [← ho]
  have ho2 : o0.height = height := by rw [← ho]
  have ho3 : o0.params = ⟨Rs.wotsParams w, o0.height.toNat⟩ := by rw [← ho]
  have ho4 : o0 = Rs.basicAt K o0 0 := by rw [← ho]; rfl
  refine ⟨o0, Rs.tallExtra S hf w height.toNat K, e1, Rs.length_tallExtra hf hw _ K, ?_⟩
  have hpw : 2 ^ (height.toNat % 32) ≤ 2 ^ 24 := Nat.pow_le_pow_right (by omega) h24
  have key : ∀ (cs : List Call) (j : Nat) (rs : List Reply) (i : Nat), j < 2 ^ 32 →
      partialLoose (2 ^ (height.toNat % 32))
          (fun i m => (rustSeedSignature .release S hf w (height.toNat % 32) seed i m).map (· ++ Rs.tallExtra S hf w height.toNat K i)) j cs =
        some (rs, i) →
      runCalls (Rs.XMSSBasic.call .release S) (Rs.basicAt K o0 j) cs = some (rs, Rs.basicAt K o0 i) ∧ i < 2 ^ 32 := by
    intro cs
    induction cs with
    | nil => intro j rs i hj h; cases h; exact ⟨rfl, hj⟩
    | cons c cs ih =>
      intro j rs i hj h
      cases c with
      | setIndex n =>
        rw [partialLoose] at h
        obtain ⟨⟨rs1, i1⟩, hx, hy⟩ := Option.map_eq_some_iff.mp h
        cases hy
        obtain ⟨g1, g2⟩ := ih n.toNat rs1 i1 n.toNat_lt hx
        refine ⟨?_, g2⟩
        rw [runCalls, Rs.XMSSBasic.call, Rs.basic_setIndex_rs K o0 j n.toNat n.toNat_lt]
        dsimp only
        have g1' : runCalls (Rs.XMSSBasic.call .release S)
          { (Rs.basicAt K o0 j) with toXMSSBase := (Rs.basicAt K o0 n.toNat).toXMSSBase } cs = some (rs1, Rs.basicAt K o0 i1) := g1
        rw [g1']
      | sign m =>
        rw [partialLoose] at h
        by_cases hlt : j < 2 ^ (height.toNat % 32)
        swap
        · rw [if_neg hlt] at h; cases h
        rw [if_pos hlt] at h
        have hsg := Rs.basic_sign_tall (S := S) hw o0 ho3 (by rw [ho2]; exact h32) (by rw [ho2]; omega) (by rw [ho2]; exact h24) K
          (by rw [ho1, ho2]; rfl) j (by rw [ho2]; exact hlt) m
        rw [ho1, ho2] at hsg
        have hrs : rustSeedSignature .release S hf w (height.toNat % 32) seed j m =
          Rs.sigW .release S hf w (height.toNat % 32) K j m := rfl
        rw [hrs] at h
        cases hσ : Rs.sigW .release S hf w (height.toNat % 32) K j m with
        | none => rw [hσ] at h; cases h
        | some s =>
          rw [hσ] at h hsg
          simp only [Option.map_some] at h
          obtain ⟨⟨rs1, i1⟩, hx, hy⟩ := Option.map_eq_some_iff.mp h
          cases hy
          obtain ⟨g1, g2⟩ := ih (j + 1) rs1 i1 (by omega) hx
          refine ⟨?_, g2⟩
          rw [runCalls, Rs.XMSSBasic.call, hsg]
          dsimp only
          rw [g1]
  intro cs rs i h
  obtain ⟨g1, g2⟩ := key cs 0 rs i (by omega) h
  rw [← ho4] at g1
  exact ⟨_, g1, Rs.getIndex_sim (Rs.basicAt K o0 i).toXMSSBase o0.params i (K.getIndex _ i rfl g2)⟩

/-- C74. The first signature of a new `XMSSFast` of an even height from 32 on holds the index, randomness and one-time signature
that the `XMSSFast` of height `height mod 32` gives for that message, under the one-time key 0 they share; it leaves the object at
index 1. It panics exactly when the other does. -/
theorem C74_fast_first (S : Sha256) (seed : Bytes) (height : UInt8) (hf : HashFn) (w : Nat) (hw : RangeW w)
    (hs : seed.length = 48) (h32 : 32 ≤ height.toNat) (he : height.toNat % 2 = 0) (m : Bytes) :
    ∃ o0, Rs.XMSSFast.new .release S seed height hf w = .ok o0 ∧
      match rustSeedSignature .release S hf w (height.toNat % 32) seed 0 m with
      | none => o0.sign .release S m = .panic
      | some s => ∃ extra o, o0.sign .release S m = .ret (s.take (36 + 32 * rustLen w) ++ extra) o ∧ o.getIndex = .ok 1 := by
  obtain ⟨st, H, e⟩ := Rs.fast_new_tall (S := S) seed height hf hw hs h32 he
  refine ⟨_, e, ?_⟩
  let K := keyP S hf w (rustLen w) (height.toNat % 32) (Rs.rustLen_pos hw) seed
  have hsg := Rs.fast_sign_first (S := S) hw
    { hashFunction := hf, height := height, seed := seed, params := ⟨Rs.wotsParams w, height.toNat⟩, state := st, sk := K.sk 0 }
    rfl h32 K rfl H rfl m
  rw [show rustSeedSignature .release S hf w (height.toNat % 32) seed 0 m =
    Rs.sigW .release S hf w (height.toNat % 32) K 0 m from rfl]
  dsimp only at hsg
  cases hσ : Rs.sigW .release S hf w (height.toNat % 32) K 0 m with
  | none => rw [hσ] at hsg; exact hsg
  | some s =>
    rw [hσ] at hsg
    obtain ⟨extra, st', hsg⟩ := hsg
    refine ⟨extra, _, hsg, ?_⟩
    exact Rs.getIndex_sim _ ⟨Rs.wotsParams w, height.toNat⟩ 1 (K.getIndex _ 1 rfl (by omega))

/-- A simple signer of height 36 set to index 3 signs with one-time key 3 of the wallet of height 4; the result is refused. -/
theorem demo_tall (S : Sha256) (hf : HashFn) (w : Nat) (hw : RangeW w) (hu : UsableW w) (m : Bytes) (hm : ¬ rustLong hf m) :
    ∃ o0 o s extra pk, Rs.XMSSBasic.new .release S zeroSeed 36 hf w = .ok o0 ∧
      rustSeedSignature .release S hf w 4 zeroSeed 3 m = some s ∧ extra.length = 1024 ∧
      runCalls (Rs.XMSSBasic.call .release S) o0 [.setIndex 3, .sign m] = some ([.index 3, .sig (s ++ extra)], o) ∧
      o.getIndex = .ok 4 ∧ o0.getPk = .ok pk ∧ Rs.verify .debug S m (s ++ extra) pk w = .fail .invalidArgument m := by
  obtain ⟨o0, extra, h0, hl, hr⟩ := C74_basic_signs S zeroSeed 36 hf w hw (by decide) (by decide) (by decide) (by decide) (by decide)
  obtain ⟨-, o0', pk, h0', hpk, hv⟩ := C74_never_verifies S zeroSeed 36 hf w hw (by decide) (by decide) (by decide)
  rw [h0] at h0'
  cases h0'
  obtain ⟨s, hsome⟩ : ∃ s, rustSeedSignature .release S hf w 4 zeroSeed 3 m = some s := by
    rw [rustSeedSignature_digest _ _ _ _ _ _ _ _ hm, rustPositions.eq_def, if_pos hu]
    exact ⟨_, rfl⟩
  have h4 : (36 : UInt8).toNat % 32 = 4 := rfl
  have h3 : (3 : UInt32).toNat = 3 := rfl
  have hp := hr [.setIndex 3, .sign m] [.index 3, .sig (s ++ extra 3)] 4 (by
    simp only [partialLoose, h4, h3, show 3 < 2 ^ 4 by decide, if_true, hsome, Option.map_some])
  obtain ⟨o, g1, g2⟩ := hp
  exact ⟨o0, o, s, extra 3, pk, h0, hsome, hl 3, g1, g2, hpk, hv _ _ _ g1 _ (by simp [signatures]) _ _⟩

example : ∃ o0 o s extra pk, Rs.XMSSBasic.new .release toySha zeroSeed 36 .shake_128 16 = .ok o0 ∧
    rustSeedSignature .release toySha .shake_128 16 4 zeroSeed 3 [1] = some s ∧ extra.length = 1024 ∧
    runCalls (Rs.XMSSBasic.call .release toySha) o0 [.setIndex 3, .sign [1]] = some ([.index 3, .sig (s ++ extra)], o) ∧
    o.getIndex = .ok 4 ∧ o0.getPk = .ok pk ∧ Rs.verify .debug toySha [1] (s ++ extra) pk 16 = .fail .invalidArgument [1] :=
  demo_tall toySha .shake_128 16 (by decide) (by unfold UsableW; decide) [1] (short_not_long (by simp only [rustShort, rustRoom]; decide))

/-- Heights 36 and 4 for `C74_distinct_heights_refuted` and `C74_recovery_refuted`, height 34 for the error there and for
`C74_fast_first`. -/
example : RangeW 16 ∧ zeroSeed.length = 48 ∧ 32 ≤ (36 : UInt8).toNat ∧ (36 : UInt8).toNat % 32 = (4 : UInt8).toNat % 32 ∧
    4 ≤ (36 : UInt8).toNat % 32 ∧ (36 : UInt8).toNat % 2 = 0 ∧ 32 ≤ (34 : UInt8).toNat ∧ (34 : UInt8).toNat % 32 < 4 := by
  refine ⟨by decide, by decide, by decide, by decide, by decide, by decide, by decide, by decide⟩

/-- The wallets of height 4 and 36 of one seed have one address. -/
example : ∃ o o' pk, Rs.XMSSFast.new .release toySha zeroSeed 36 .shake_128 16 = .ok o ∧
    Rs.XMSSFast.new .release toySha zeroSeed 4 .shake_128 16 = .ok o' ∧ o.getPk = .ok pk ∧ o'.getPk = .ok pk ∧
    o.getAddress toySha = o'.getAddress toySha := by
  obtain ⟨⟨o, o', pk, h1, h2, h3, h4, -, -, h5, -⟩, -⟩ := C74_distinct_heights_refuted toySha zeroSeed 36 4 .shake_128 16 (by decide)
    (by decide) (by decide) (by decide) (by decide) (by decide)
  exact ⟨o, o', pk, h1, h2, h3, h4, h5⟩

end Qrl.Props
