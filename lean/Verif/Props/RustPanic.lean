import Verif.Proof.RustPanic
import Verif.Props.Leaves
import Verif.Props.RustAnyW
import Verif.Props.RustPrice
/-!
# C90: a Rust signer after a caught panic
-/

namespace Qrl.Props

open Qrl.Spec

/-! ## No one-time key is used twice -/

theorem no_reuse_core (b : Rs.Build) (S : Sha256) (cs : List (Call × BdsState)) : ∀ (o : Rs.XMSSFast), 4 ≤ o.sk.length →
    4 ≤ (Rs.runCaught (Rs.XMSSFast.caught b S) o cs).2.sk.length ∧
    byteVal (o.sk.take 4) ≤ byteVal ((Rs.runCaught (Rs.XMSSFast.caught b S) o cs).2.sk.take 4) ∧
    ((Rs.caughtSignatures (Rs.runCaught (Rs.XMSSFast.caught b S) o cs).1).map sigIndex).Pairwise (· < ·) ∧
    ∀ s ∈ Rs.caughtSignatures (Rs.runCaught (Rs.XMSSFast.caught b S) o cs).1, byteVal (o.sk.take 4) ≤ sigIndex s ∧
      sigIndex s < byteVal ((Rs.runCaught (Rs.XMSSFast.caught b S) o cs).2.sk.take 4) := by
  induction cs with
  | nil => intro o h4; exact ⟨h4, Nat.le_refl _, List.Pairwise.nil, fun s h => by cases h⟩
  | cons c cs ih =>
    intro o h4
    obtain ⟨a1, a2, a3⟩ := Rs.caught_any b S h4 c
    obtain ⟨b1, b2, b3, b4⟩ := ih (o.caught b S c).2 a1
    rw [Rs.runCaught]
    dsimp only
    refine ⟨b1, Nat.le_trans a2 b2, ?_⟩
    have hrest : ∀ s ∈ Rs.caughtSignatures (Rs.runCaught (Rs.XMSSFast.caught b S) (o.caught b S c).2 cs).1,
        byteVal (o.sk.take 4) ≤ sigIndex s ∧
        sigIndex s < byteVal ((Rs.runCaught (Rs.XMSSFast.caught b S) (o.caught b S c).2 cs).2.sk.take 4) :=
      fun s hs => ⟨Nat.le_trans a2 (b4 s hs).1, (b4 s hs).2⟩
    cases hr : (o.caught b S c).1 with
    | none => exact ⟨b3, hrest⟩
    | some r =>
      cases r with
      | index n => exact ⟨b3, hrest⟩
      | threw e => exact ⟨b3, hrest⟩
      | sig s =>
        obtain ⟨e1, e2⟩ := a3 s hr
        rw [Rs.caughtSignatures, List.map_cons]
        refine ⟨List.Pairwise.cons ?_ b3, ?_⟩
        · intro x hx
          obtain ⟨s', hs', rfl⟩ := List.mem_map.mp hx
          have := (b4 s' hs').1
          omega
        · intro s' hs'
          rcases List.mem_cons.mp hs' with rfl | hs'
          · omega
          · exact hrest s' hs'

/-- C90. **A caught panic never leads to a reused one-time key.** Take any `XMSSFast`, whatever its parameters, tree state and
secret key (only an index must be readable), and any history of `set_index` and `sign` in which every panic is caught and the
object used again, whatever tree state a panic leaves. The indices in the signatures returned strictly increase, none is below
the index at the start, and the index at the end is past all of them. -/
theorem C90_fast_no_reuse (b : Rs.Build) (S : Sha256) (o : Rs.XMSSFast) (i : Nat) (hi : o.getIndex = .ok i)
    (cs : List (Call × BdsState)) (rs : List (Option Reply)) (o' : Rs.XMSSFast)
    (hrun : Rs.runCaught (Rs.XMSSFast.caught b S) o cs = (rs, o')) :
    ((Rs.caughtSignatures rs).map sigIndex).Pairwise (· < ·) ∧ (∀ s ∈ Rs.caughtSignatures rs, i ≤ sigIndex s) ∧
    ∃ j, o'.getIndex = .ok j ∧ i ≤ j ∧ ∀ s ∈ Rs.caughtSignatures rs, sigIndex s < j := by
  have h4 : 4 ≤ o.sk.length := by
    apply Classical.byContradiction
    intro h
    rw [Rs.index_short (by omega)] at hi
    cases hi
  rw [Rs.index_rs h4] at hi
  cases hi
  have h := no_reuse_core b S cs o h4
  rw [hrun] at h
  obtain ⟨a1, a2, a3, a4⟩ := h
  exact ⟨a3, fun s hs => (a4 s hs).1, _, Rs.index_rs a1, a2, fun s hs => (a4 s hs).2⟩


/-! ## What the panic leaves of an honest object -/

/-- The object a panicking `sign` leaves. -/
theorem lag_of_panic {b : Rs.Build} {S : Sha256} {f : HashFn} {seed : Bytes} {height : UInt8} {w i : Nat} {o o' : Rs.XMSSFast}
    (h : RsCanonW S f seed height w i o) {torn : BdsState} {m : Bytes} (hp : o.signP b S torn m = .panic o') :
    i < 2 ^ height.toNat ∧ ∃ (hw : RangeW w) (o1 : Rs.XMSSFast),
      Rs.FastW S w (keyP S f w (rustLen w) height.toNat (Rs.rustLen_pos hw) seed) o1 ∧ o1.hashFunction = f ∧
      o1.height = height ∧ o1.seed = seed ∧
      o = Rs.fastAt S (keyP S f w (rustLen w) height.toNat (Rs.rustLen_pos hw) seed) o1 i ∧
      o' = Rs.lagAt S (keyP S f w (rustLen w) height.toNat (Rs.rustLen_pos hw) seed) o1 i := by
  obtain ⟨hw, o1, H, rfl, rfl, e3, hi, rfl⟩ := h
  have hlt : i < 2 ^ o1.height.toNat := by
    apply Classical.byContradiction
    intro hc
    have hie : i = 2 ^ o1.height.toNat := by omega
    subst hie
    rw [Rs.XMSSFast.signP, H.getIndex _ (Nat.le_refl _)] at hp
    dsimp only at hp
    rw [Rs.XMSSFast.setIndexP, H.setIndex_fail b _ _ (Nat.le_refl _) (Or.inl (Nat.le_refl _))] at hp
    cases hp
  refine ⟨hlt, hw, o1, H, rfl, rfl, e3, rfl, ?_⟩
  rw [H.signP b torn i hlt m] at hp
  split at hp
  · exact (Rs.Fate.panic.inj hp).symm
  · cases hp

/-- C90. **A panicking `sign` uses up its index.** For every seed, height, hash function, `w` from 2 to 65535 and every
history of `initialize_tree`, `set_index` and `sign` on the Rust `XMSSFast` in either kind of build: if `sign` panics at index
`i`, then the object it leaves has index `i + 1`, the same public key, the same tree state (still that of index `i`), whatever
state a panic inside the rounds would leave. A message too long for the port's hash (`rustLong`) always makes it panic. -/
theorem C90_fast_burned (b : Rs.Build) (S : Sha256) (seed : Bytes) (height : UInt8) (hf : HashFn) (w : Nat) (hw : RangeW w)
    (hs : seed.length = 48) (hh : GoodHeight height) (o0 : Rs.XMSSFast) (hnew : Rs.XMSSFast.new b S seed height hf w = .ok o0)
    (cs : List FullCall) (hcs : RangeWs cs) (rs : List FullReply) (o : Rs.XMSSFast) (hrun : Rs.runFull b S o0 cs = some (rs, o))
    (i : Nat) (hi : o.getIndex = .ok i) (m : Bytes) :
    (o.sign b S m = .panic → i < 2 ^ height.toNat ∧ ∃ o', (∀ torn, o.signP b S torn m = .panic o') ∧ o'.getIndex = .ok (i + 1) ∧
      o'.getPk = o.getPk ∧ o'.state = o.state ∧ o'.params = o.params ∧ o'.seed = o.seed) ∧
    (i < 2 ^ height.toNat → rustLong hf m → o.sign b S m = .panic) := by
  obtain ⟨i', hcan⟩ := rsCanonW_reach hs hh hw hnew hcs hrun
  have := (rsCanonW_index hcan).symm.trans hi
  cases this
  obtain ⟨h1, h2⟩ := rsCanonW_sign (b := b) hcan m
  constructor
  · intro hp
    have hlt : i < 2 ^ height.toNat := by
      apply Classical.byContradiction
      intro hc
      rw [h2 hc] at hp
      cases hp
    refine ⟨hlt, ?_⟩
    obtain ⟨hw', o1, H, rfl, rfl, e3, hi', rfl⟩ := hcan
    have hsg := fun torn => H.signP b torn i hlt m
    have hns := H.sign b i hlt m
    cases hx : Rs.sigW b S o1.hashFunction (paramAfter w cs) o1.height.toNat
      (keyP S o1.hashFunction (paramAfter w cs) (rustLen (paramAfter w cs)) o1.height.toNat (Rs.rustLen_pos hw') seed) i m with
    | some s => rw [hx] at hns; dsimp only at hns; rw [hp] at hns; cases hns
    | none =>
      rw [hx] at hsg
      refine ⟨_, hsg, H.lag_index i hlt, ?_, rfl, rfl, rfl⟩
      obtain ⟨pk, a1, _, _, _, a2, a3, _, a4⟩ := rust_pk_any S seed o1.height o1.hashFunction (paramAfter w cs) hw' hh
        (Rs.lagAt S (keyP S o1.hashFunction (paramAfter w cs) (rustLen (paramAfter w cs)) o1.height.toNat (Rs.rustLen_pos hw') seed)
          o1 i).toXMSSBase (i + 1) rfl rfl rfl
      obtain ⟨pk', c1, _, _, _, c2, c3, _, c4⟩ := rust_pk_any S seed o1.height o1.hashFunction (paramAfter w cs) hw' hh
        (Rs.fastAt S (keyP S o1.hashFunction (paramAfter w cs) (rustLen (paramAfter w cs)) o1.height.toNat (Rs.rustLen_pos hw') seed)
          o1 i).toXMSSBase i rfl rfl rfl
      rw [a1, c1, a4, c4, a2, a3, c2, c3]
  · intro hlt hl
    have h1 := h1 hlt
    cases hx : rustSeedSignature b S hf (paramAfter w cs) height.toNat seed i m with
    | none => rw [hx] at h1; exact h1
    | some s => exact absurd hl (not_long_of_signed hx)

/-- The signature with the path of the index before. -/
theorem sigWith_take {b : Rs.Build} {S : Sha256} {f : HashFn} {w h : Nat} (hw : RangeW w) {seed : Bytes} {j : Nat} {m : Bytes}
    {ds : List Nat}
    (hd : Rs.digitsW b S f w h (keyP S f w (rustLen w) h (Rs.rustLen_pos hw) seed) j m = some ds) (path : List Bytes) :
    ∃ s, rustSeedSignature b S f w h seed j m = some s ∧
      Rs.sigWith S f (keyP S f w (rustLen w) h (Rs.rustLen_pos hw) seed) j ds path = s.take (36 + 32 * rustLen w) ++ path.flatten := by
  have hsg : rustSeedSignature b S f w h seed j m =
      Rs.sigW b S f w h (keyP S f w (rustLen w) h (Rs.rustLen_pos hw) seed) j m := rfl
  rw [Rs.sigW_digits, hd] at hsg
  refine ⟨_, hsg, ?_⟩
  have hds : ds.length = rustLen w := by
    rw [Rs.digitsW, Option.bind_eq_bind] at hd
    obtain ⟨m', _, hd⟩ := Option.bind_eq_some_iff.mp hd
    exact (Rs.rustPositions_props hw (by rw [Spec.digest]; exact length_Hmsg ..) hd).1
  rw [Rs.sigWith, signatureFrom, List.take_left']
  simp only [List.length_append, length_be, length_PRF, length_flatten32 _ (mem_wotsSig S f _ _ j _)]
  simp only [Spec.wotsSig, List.length_map, List.length_zipIdx, hds]

/-- C90, refuted: the natural property that a caught panic costs one index only. The next `sign` at the index `i + 1` gives the
randomness and the chain values of that index with **the authentication path of index `i`** (or panics in the
rounds after it; not if `i + 1` is the last index). The index moves on to `i + 2`. If `i` was the last index, `sign` fails with
`InvalidArgument` as on any exhausted object. -/
theorem C90_fast_next_refuted (b : Rs.Build) (S : Sha256) (seed : Bytes) (height : UInt8) (hf : HashFn) (w : Nat) (hw : RangeW w)
    (hs : seed.length = 48) (hh : GoodHeight height) (o0 : Rs.XMSSFast) (hnew : Rs.XMSSFast.new b S seed height hf w = .ok o0)
    (cs : List FullCall) (hcs : RangeWs cs) (rs : List FullReply) (o : Rs.XMSSFast) (hrun : Rs.runFull b S o0 cs = some (rs, o))
    (i : Nat) (hi : o.getIndex = .ok i) (m : Bytes) (torn : BdsState) (o' : Rs.XMSSFast) (hp : o.signP b S torn m = .panic o')
    (m' : Bytes) (torn' : BdsState) :
    (i + 1 = 2 ^ height.toNat → o'.signP b S torn' m' = .fail .invalidArgument o') ∧
    (i + 1 < 2 ^ height.toNat →
      match rustSeedSignature b S hf (paramAfter w cs) height.toNat seed (i + 1) m' with
      | none => ∃ o'', o'.signP b S torn' m' = .panic o'' ∧ o''.getIndex = .ok (i + 2)
      | some s =>
        (∃ o'', o'.signP b S torn' m' = .ret (s.take (36 + 32 * rustLen (paramAfter w cs)) ++
            (authPath (hf.prim S) (paramAfter w cs) (rustLen (paramAfter w cs)) ((shake256 96 seed).take 32)
              ((shake256 96 seed).drop 64) height.toNat i).flatten) o'' ∧ o''.getIndex = .ok (i + 2)) ∨
        (i + 2 < 2 ^ height.toNat ∧ ∃ o'', o'.signP b S torn' m' = .panic o'' ∧ o''.getIndex = .ok (i + 2))) := by
  obtain ⟨i', hcan⟩ := rsCanonW_reach hs hh hw hnew hcs hrun
  have := (rsCanonW_index hcan).symm.trans hi
  cases this
  obtain ⟨hlt, hw', o1, H, rfl, rfl, e3, rfl, rfl⟩ := lag_of_panic hcan hp
  generalize paramAfter w cs = v at *
  have hpow := H.pow_le
  have hidx : ∀ (x : Rs.XMSSFast), x.sk = (keyP S o1.hashFunction v (rustLen v) o1.height.toNat (Rs.rustLen_pos hw') seed).sk (i + 2) →
      x.getIndex = .ok (i + 2) := fun x hx =>
    Rs.getIndex_sim x.toXMSSBase o1.params (i + 2) (KeyParts.getIndex _ _ (i + 2) hx (by omega))
  constructor
  · intro hlast
    have hlag : Rs.lagAt S (keyP S o1.hashFunction v (rustLen v) o1.height.toNat (Rs.rustLen_pos hw') seed) o1 i =
        Rs.fastAt S (keyP S o1.hashFunction v (rustLen v) o1.height.toNat (Rs.rustLen_pos hw') seed) o1 (2 ^ o1.height.toNat) := by
      rw [Rs.lagAt, Rs.fastAt, Rs.fastAt, ← hlast, show min i (i + 1 - 1) = i by omega, show min (i + 1) (i + 1 - 1) = i by omega]
    rw [hlag, Rs.XMSSFast.signP, H.getIndex _ (Nat.le_refl _)]
    dsimp only
    rw [Rs.XMSSFast.setIndexP, H.setIndex_fail b _ _ (Nat.le_refl _) (Or.inl (Nat.le_refl _))]
  · intro hnext
    have hl := H.lag_signP b torn' i hnext m'
    cases hd : Rs.digitsW b S o1.hashFunction v o1.height.toNat
      (keyP S o1.hashFunction v (rustLen v) o1.height.toNat (Rs.rustLen_pos hw') seed) (i + 1) m' with
    | none =>
      rw [hd] at hl
      have hsg : rustSeedSignature b S o1.hashFunction v o1.height.toNat seed (i + 1) m' = none := by
        have : rustSeedSignature b S o1.hashFunction v o1.height.toNat seed (i + 1) m' =
          Rs.sigW b S o1.hashFunction v o1.height.toNat (keyP S o1.hashFunction v (rustLen v) o1.height.toNat (Rs.rustLen_pos hw') seed)
            (i + 1) m' := rfl
        rw [this, Rs.sigW_digits, hd]
        rfl
      rw [hsg]
      exact ⟨_, hl, hidx _ rfl⟩
    | some ds =>
      rw [hd] at hl
      obtain ⟨s, h1, h2⟩ := sigWith_take hw' hd (authPath (o1.hashFunction.prim S) v (rustLen v) ((shake256 96 seed).take 32)
        ((shake256 96 seed).drop 64) o1.height.toNat i)
      rw [h1]
      dsimp only at hl ⊢
      rcases hl with ⟨st, hl⟩ | ⟨hl0, hl⟩
      · left
        refine ⟨_, ?_, hidx { Rs.lagAt S (keyP S o1.hashFunction v (rustLen v) o1.height.toNat (Rs.rustLen_pos hw') seed) o1 i with
          sk := (keyP S o1.hashFunction v (rustLen v) o1.height.toNat (Rs.rustLen_pos hw') seed).sk (i + 2), state := st } rfl⟩
        rw [← h2]
        exact hl
      · exact Or.inr ⟨hl0, _, hl, hidx _ rfl⟩


theorem sibling_ne (i : Nat) : sibling i ≠ sibling (i + 1) := by
  rw [sibling, sibling]; split <;> split <;> omega

theorem sibling_lt {i h : Nat} (h1 : 1 ≤ h) (hi : i < 2 ^ h) : sibling i < 2 ^ h := by
  obtain ⟨k, rfl⟩ : ∃ k, h = k + 1 := ⟨h - 1, by omega⟩
  rw [sibling, Nat.pow_succ] at *; split <;> omega

/-- C90. **That next signature is rejected.** For the four supported values of `w`: if `verify` of the port, in either kind of
build, accepts it for any message under the object's public key, two of the listed hash calls collide. It carries the index
`i + 1`. -/
theorem C90_fast_next_rejected (b b' : Rs.Build) (S : Sha256) (seed : Bytes) (height : UInt8) (hf : HashFn) (w : Nat)
    (hw : RangeW w) (hs : seed.length = 48) (hh : GoodHeight height) (o0 : Rs.XMSSFast)
    (hnew : Rs.XMSSFast.new b S seed height hf w = .ok o0)
    (cs : List FullCall) (hcs : RangeWs cs) (rs : List FullReply) (o : Rs.XMSSFast) (hrun : Rs.runFull b S o0 cs = some (rs, o))
    (v : Nat) (hv : v = paramAfter w cs) (hv4 : v = 2 ∨ v = 4 ∨ v = 16 ∨ v = 256)
    (i : Nat) (hi : o.getIndex = .ok i) (m : Bytes) (torn : BdsState) (o' : Rs.XMSSFast) (hp : o.signP b S torn m = .panic o')
    (m' : Bytes) (torn' : BdsState) (sig : Bytes) (o'' : Rs.XMSSFast) (hsig : o'.signP b S torn' m' = .ret sig o'')
    (pk : Bytes) (hpk : o.getPk = .ok pk) :
    sigIndex sig = i + 1 ∧ ∀ msg, Rs.verify b' S msg sig pk v = .ret () msg →
      Collides (hf.prim S) (verifyCalls (hf.prim S) v (rustRead hf (keyRoot pk) msg sig) sig pk ++
        nodeCalls (hf.prim S) v (lenW v) ((shake256 96 seed).take 32) ((shake256 96 seed).drop 64) height.toNat 0) := by
  have hcan := rsCanonW_reach hs hh hw hnew hcs hrun
  obtain ⟨i', hcan⟩ := hcan
  have := (rsCanonW_index hcan).symm.trans hi
  cases this
  obtain ⟨hlast, hnext⟩ := C90_fast_next_refuted b S seed height hf w hw hs hh o0 hnew cs hcs rs o hrun i hi m torn o' hp m' torn'
  have hlt := (lag_of_panic hcan hp).1
  obtain ⟨pk', p1, p2, p3, p4, p5, p6, -⟩ := rsCanonW_pk hh hcan
  rw [hpk] at p1
  cases p1
  have hrange := rsCanonW_range hcan
  rw [← hv] at *
  have hu : UsableW v := by rw [UsableW]; omega
  have hlen : rustLen v = lenW v := Rs.rustLen_usable hu
  have h1 : i + 1 < 2 ^ height.toNat := by
    apply Classical.byContradiction
    intro hc
    rw [hlast (by omega)] at hsig
    cases hsig
  have hnext := hnext h1
  obtain ⟨s, hs1, hs2⟩ : ∃ s, rustSeedSignature b S hf v height.toNat seed (i + 1) m' = some s ∧
      sig = s.take (36 + 32 * rustLen v) ++ (authPath (hf.prim S) v (rustLen v) ((shake256 96 seed).take 32)
        ((shake256 96 seed).drop 64) height.toNat i).flatten := by
    cases hx : rustSeedSignature b S hf v height.toNat seed (i + 1) m' with
    | none =>
      rw [hx] at hnext
      obtain ⟨_, e, _⟩ := hnext
      rw [hsig] at e
      cases e
    | some s =>
      rw [hx] at hnext
      refine ⟨s, rfl, ?_⟩
      rcases hnext with ⟨_, e, _⟩ | ⟨_, _, e, _⟩
      · rw [hsig] at e
        exact (Rs.Fate.ret.inj e).1
      · rw [hsig] at e; cases e
  have hG := out32 S hf
  have hpow : 2 ^ height.toNat ≤ 2 ^ 30 := Nat.pow_le_pow_right (by omega) hh.2.1
  have hlen4 := lenW_values
  have hl2 : 2 ≤ lenW v ∧ lenW v < 2 ^ 32 := by
    rcases hv4 with rfl | rfl | rfl | rfl <;> decide
  -- the parts of the signature
  have hnl := not_long_of_signed hs1
  have hsl : s.length = 36 + 32 * rustLen v + 32 * height.toNat ∧ ∃ t, s = be 4 (i + 1) ++ t := by
    rw [rustSeedSignature_digest _ _ _ _ _ _ _ _ hnl] at hs1
    obtain ⟨ds, hds, rfl⟩ := Option.map_eq_some_iff.mp hs1
    have hds := (Rs.rustPositions_props hrange (length_seedDigest hnl) hds).1
    refine ⟨?_, _, by rw [signatureFrom, List.append_assoc, List.append_assoc]⟩
    rw [signatureFrom]
    simp only [List.length_append, length_be, length_PRF, length_flatten32 _ (mem_wotsSig S hf _ _ (i + 1) _),
      length_flatten32 _ (mem_authPath S hf v (rustLen v) _ _ _ (i + 1) (Rs.rustLen_pos hrange))]
    simp only [Spec.wotsSig, Spec.authPath, List.length_map, List.length_zipIdx, List.length_range, hds]
  obtain ⟨hsl, t, ht⟩ := hsl
  have hidx : sigIndex sig = i + 1 := by
    rw [sigIndex, hs2, List.take_append_of_le_length (by rw [List.length_take]; omega), List.take_take, ht,
      List.take_append_of_le_length (by rw [length_be]; omega), show min 4 (36 + 32 * rustLen v) = 4 by omega,
      List.take_of_length_le (by rw [length_be]), byteVal_be, Nat.mod_eq_of_lt (by omega)]
  refine ⟨hidx, fun msg hver => ?_⟩
  have hacc := (C80_accepts_read b' S hf v hv4 msg sig pk p3 hver).2
  obtain ⟨wf, hf', hh', hr⟩ := verify_true_iff hv4 hacc
  rw [p3] at hh'
  cases hh'
  rw [p4, p6] at hr
  rw [hlen] at p5
  have hw3 := wf.2.2
  rw [p4] at hw3
  rcases honest_root hG hv4 (by have := hh.1; omega) hh.2.1 hw3 p5 hr with ⟨_, hpath, _⟩ | hc
  swap
  · rw [verifyCalls, p4, p6]
    exact hc
  rw [hidx] at hpath
  rw [hlen] at hs2 hsl
  generalize (shake256 96 seed).take 32 = sk at *
  generalize (shake256 96 seed).drop 64 = ps at *
  have hpl : ∀ j, (authPath (hf.prim S) v (lenW v) sk ps height.toNat j).length = height.toNat := by intro j; simp [authPath]
  have hset : sigPath v height.toNat sig = authPath (hf.prim S) v (lenW v) sk ps height.toNat i := by
    have := Qrl.chunks_flatten (s.take (36 + 32 * lenW v)) (authPath (hf.prim S) v (lenW v) sk ps height.toNat i)
      (mem_authPath S hf v (lenW v) _ _ _ i (by omega)) [] (36 + 32 * lenW v) (by rw [List.length_take]; omega)
    rw [List.append_nil, ← hs2, hpl] at this
    exact this
  rw [hset] at hpath
  have h4 := hh.1
  have hel := congrArg (fun l => l[0]?) hpath
  rw [authPath, authPath, List.getElem?_map, List.getElem?_map, List.getElem?_range (by omega)] at hel
  simp only [Option.map_some, Option.some.injEq, Nat.pow_zero, Nat.div_one] at hel
  have hel : leaf (hf.prim S) v (lenW v) sk ps (sibling i) = leaf (hf.prim S) v (lenW v) sk ps (sibling (i + 1)) := hel
  have b1 := sibling_lt (by omega) hlt
  have b2 := sibling_lt (by omega) h1
  have hsub : ∀ j, j < 2 ^ height.toNat → leafCalls (hf.prim S) v (lenW v) sk ps j ⊆
      nodeCalls (hf.prim S) v (lenW v) sk ps height.toNat 0 := by
    intro j hj
    have := nodeCalls_sub (hf.prim S) v (lenW v) sk ps height.toNat 0 j
    rwa [Nat.zero_add, Nat.div_eq_of_lt hj] at this
  rcases leaf_ne hG hl2.1 hl2.2 (by omega) (by omega) hel with e | hc
  · exact absurd e (sibling_ne i)
  · refine hc.mono ?_
    intro z hz
    apply List.mem_append_right
    rcases List.mem_append.mp hz with hz | hz
    · exact hsub _ b1 hz
    · exact hsub _ b2 hz

/-- C90. **How to go on.** `initialize_tree` with the same parameter and then `set_index(i + 1)` on the object the panic left
give an object whose next `sign` is the honest one of index `i + 1`, under the same public key. -/
theorem C90_fast_healed (b : Rs.Build) (S : Sha256) (seed : Bytes) (height : UInt8) (hf : HashFn) (w : Nat) (hw : RangeW w)
    (hs : seed.length = 48) (hh : GoodHeight height) (o0 : Rs.XMSSFast) (hnew : Rs.XMSSFast.new b S seed height hf w = .ok o0)
    (cs : List FullCall) (hcs : RangeWs cs) (rs : List FullReply) (o : Rs.XMSSFast) (hrun : Rs.runFull b S o0 cs = some (rs, o))
    (i : Nat) (hi : o.getIndex = .ok i) (m : Bytes) (torn : BdsState) (o' : Rs.XMSSFast) (hp : o.signP b S torn m = .panic o')
    (hnext : i + 1 < 2 ^ height.toNat) :
    ∃ o1 o2, o'.initializeTree b S (paramAfter w cs) = .ret () o1 ∧ o1.setIndex b S (i + 1) = .ret (i + 1) o2 ∧
      o2.getPk = o.getPk ∧ ∀ m', match rustSeedSignature b S hf (paramAfter w cs) height.toNat seed (i + 1) m' with
        | none => o2.sign b S m' = .panic
        | some s => ∃ o3, o2.sign b S m' = .ret s o3 ∧ o3.getIndex = .ok (i + 2) := by
  obtain ⟨i', hcan⟩ := rsCanonW_reach hs hh hw hnew hcs hrun
  have := (rsCanonW_index hcan).symm.trans hi
  cases this
  have hcan0 := hcan
  obtain ⟨hlt, hw', o1, H, rfl, rfl, rfl, rfl, rfl⟩ := lag_of_panic hcan hp
  obtain ⟨x, e1, e2, e3, e4, H2⟩ := Rs.initializeTree_rsAny (S := S) b
    (Rs.lagAt S (keyP S o1.hashFunction (paramAfter w cs) (rustLen (paramAfter w cs)) o1.height.toNat (Rs.rustLen_pos hw') o1.seed)
      o1 i) hw' hs hh
  have e2 : x.hashFunction = o1.hashFunction := e2
  have e3 : x.height = o1.height := e3
  have e4 : x.seed = o1.seed := e4
  have H2 : Rs.FastW S (paramAfter w cs) (keyP S o1.hashFunction (paramAfter w cs) (rustLen (paramAfter w cs)) o1.height.toNat
    (Rs.rustLen_pos hw') o1.seed) x := H2
  have hset := H2.setIndex_ok b 0 (i + 1) (Nat.zero_le _) (by rw [e3]; exact hnext)
  rw [H2.zero] at hset
  have hcan2 : RsCanonW S o1.hashFunction o1.seed o1.height (paramAfter w cs) (i + 1) (Rs.fastAt S
    (keyP S o1.hashFunction (paramAfter w cs) (rustLen (paramAfter w cs)) o1.height.toNat (Rs.rustLen_pos hw') o1.seed) x (i + 1)) :=
    ⟨hw', x, H2, e2, e3, e4, Nat.le_of_lt hnext, rfl⟩
  refine ⟨_, _, e1, hset, rsCanonW_same_pk hh hcan2 hcan0, fun m' => ?_⟩
  have h := (rsCanonW_sign (b := b) hcan2 m').1 hnext
  cases hx : rustSeedSignature b S o1.hashFunction (paramAfter w cs) o1.height.toNat o1.seed (i + 1) m' with
  | none => rw [hx] at h; exact h
  | some s =>
    rw [hx] at h
    obtain ⟨o3, a1, a2⟩ := h
    exact ⟨o3, a1, rsCanonW_index a2⟩

/-- C90. **`XMSSBasic` over every history with caught panics.** It has no tree state to fall behind: every `sign`, panicking
or not, uses up its index, the next one is honest, and all panics are at indices past the tree, at heights from 26 on, or for
messages and parameters that cannot be signed. Only the largest `u32` is different (see `burningLoose`). In a build without
overflow checks at heights 4 and 6 the history must keep below index 2^29 and 2^31 (`C52_release_history` says what happens
beyond). -/
theorem C90_basic_history (b : Rs.Build) (S : Sha256) (seed : Bytes) (height : UInt8) (hf : HashFn) (w : Nat) (hw : RangeW w)
    (hs : seed.length = 48) (hh : GoodHeight height) :
    ∃ o0, Rs.XMSSBasic.new b S seed height hf w = .ok o0 ∧ ∀ cs : List Call,
      (b = .debug ∨ 8 ≤ height.toNat ∨ cs.length ≤ 2 ^ (25 + height.toNat) ∧
        ∀ n, Call.setIndex n ∈ cs → n.toNat + cs.length ≤ 2 ^ (25 + height.toNat)) →
      ∃ rs o i, Rs.runCaught (Rs.XMSSBasic.caught b S) o0 cs = (rs, o) ∧ o.getIndex = .ok i ∧
        burningLoose (if height.toNat ≤ 24 then 2 ^ height.toNat else 0) (b = .release)
          (rustSeedSignature b S hf w height.toNat seed) 0 cs = (rs, i) := by
  refine ⟨_, Rs.basic_new_rsAny b seed height hf hw hs hh, fun cs hb => ?_⟩
  let K := keyP S hf w (rustLen w) height.toNat (Rs.rustLen_pos hw) seed
  let o0 : Rs.XMSSBasic := { hashFunction := hf, height := height, sk := K.sk 0, seed := seed, params := ⟨Rs.wotsParams w, height.toNat⟩ }
  obtain ⟨j, h1, h2, h3⟩ := Rs.basic_caught_rs (S := S) b hw o0 rfl hh K rfl cs 0 (by omega) (by
    rcases hb with h | h | h
    · exact Or.inl h
    · exact Or.inr (Or.inl h)
    · exact Or.inr (Or.inr ⟨by rw [Nat.zero_add]; exact h.1, h.2⟩))
  refine ⟨_, _, j, h2, ?_, ?_⟩
  · exact Rs.getIndex_sim (Rs.basicAt K o0 j).toXMSSBase o0.params j (K.getIndex _ j rfl h1)
  · rw [h3]
    rfl

/-- C90. The functions that also give the object a panic leaves are `set_index` and `sign`: they return the same in the same
cases, and panic where those do. -/
theorem C90_agrees (b : Rs.Build) (S : Sha256) (torn : BdsState) :
    (∀ (o : Rs.XMSSFast) m s o', o.signP b S torn m = .ret s o' ↔ o.sign b S m = .ret s o') ∧
    (∀ (o : Rs.XMSSFast) m e o', o.signP b S torn m = .fail e o' → o.sign b S m = .fail e o') ∧
    (∀ (o : Rs.XMSSFast) m, o.sign b S m = .panic → ∃ o', o.signP b S torn m = .panic o') ∧
    (∀ (o : Rs.XMSSFast) n r o', o.setIndexP b S torn n = .ret r o' ↔ o.setIndex b S n = .ret r o') ∧
    (∀ (o : Rs.XMSSFast) n e o', o.setIndexP b S torn n = .fail e o' ↔ o.setIndex b S n = .fail e o') ∧
    (∀ (o : Rs.XMSSBasic) m s o', o.signP b S m = .ret s o' ↔ o.sign b S m = .ok (s, o')) := by
  have hfail : ∀ (o : Rs.XMSSFast) m e o', o.signP b S torn m = .fail e o' → o.sign b S m = .fail e o' := by
    intro o m e o' h
    rw [Rs.XMSSFast.signP] at h
    rw [Rs.XMSSFast.sign]
    cases hg : o.getIndex with
    | err e => rw [hg] at h; cases h
    | panic => rw [hg] at h; cases h
    | ok i =>
      rw [hg] at h
      dsimp only at h ⊢
      rw [Rs.XMSSFast.setIndexP] at h
      cases hset : o.setIndex b S i with
      | panic => rw [hset] at h; cases h
      | fail e1 o1 =>
        rw [hset] at h
        dsimp only at h ⊢
        obtain ⟨rfl, rfl⟩ := Rs.Fate.fail.inj h
        rfl
      | ret r o1 =>
        rw [hset] at h
        dsimp only at h
        rw [Rs.XMSSFast.signMsgP] at h
        repeat' split at h
        all_goals cases h
  refine ⟨fun o m s o' => Rs.signP_ret b S torn o m s o', hfail, fun o m h => ?_, fun o n r o' => ?_, fun o n e o' => ?_,
    fun o m s o' => Rs.basicSignP_ret b S o m s o'⟩
  · cases hx : o.signP b S torn m with
    | panic o' => exact ⟨o', rfl⟩
    | ret s o' => have := (Rs.signP_ret b S torn o m s o').mp hx; rw [h] at this; cases this
    | fail e o' => have := hfail o m e o' hx; rw [h] at this; cases this
  · rw [Rs.XMSSFast.setIndexP]
    cases o.setIndex b S n <;> simp
  · rw [Rs.XMSSFast.setIndexP]
    cases o.setIndex b S n <;> simp

/-! ## The hypotheses are met -/

/-- A signer at index 14 of 16, a message too long (panic), then a short one: a signature, under the index 15. -/
theorem demo_panic (b : Rs.Build) (S : Sha256) (hf : HashFn) (m m' : Bytes) (hm : rustLong hf m) (hm' : ¬ rustLong hf m')
    (torn torn' : BdsState) :
    ∃ o0 rs o o' sig o'' pk, Rs.XMSSFast.new b S zeroSeed 4 hf 16 = .ok o0 ∧ RangeWs [.basic (.setIndex 14)] ∧
      Rs.runFull b S o0 [.basic (.setIndex 14)] = some (rs, o) ∧ o.getIndex = .ok 14 ∧ o.sign b S m = .panic ∧
      o.signP b S torn m = .panic o' ∧ o'.signP b S torn' m' = .ret sig o'' ∧ o.getPk = .ok pk := by
  have hcs : RangeWs [.basic (.setIndex 14)] := by intro w hw; simp at hw
  obtain ⟨o0, h0, h⟩ := C69_full_history b S zeroSeed 4 hf 16 (by decide) (by decide) goodHeight4 _ hcs
  have hp : partialFull (2 ^ (UInt8.toNat 4)) (fun w => rustSeedSignature b S hf w (UInt8.toNat 4) zeroSeed) 16 0
      [.basic (.setIndex 14)] = some ([some (.index 14)], 16, 14) := by
    simp [partialFull]
  rw [hp] at h
  obtain ⟨o, e1, e2⟩ := h
  have hb := C90_fast_burned b S zeroSeed 4 hf 16 (by decide) (by decide) goodHeight4 o0 h0 _ hcs _ o e1 14 e2 m
  have hpan := hb.2 (by decide) hm
  obtain ⟨_, o', hsg, _, hpk, _⟩ := hb.1 hpan
  obtain ⟨i', hcan⟩ := rsCanonW_reach (by decide) goodHeight4 (by decide) h0 hcs e1
  obtain ⟨pk, p1, _⟩ := rsCanonW_pk goodHeight4 hcan
  have hn := (C90_fast_next_refuted b S zeroSeed 4 hf 16 (by decide) (by decide) goodHeight4 o0 h0 _ hcs _ o e1 14 e2 m torn o'
    (hsg torn) m' torn').2 (by decide)
  rw [show paramAfter 16 [.basic (.setIndex 14)] = 16 from rfl] at hn
  obtain ⟨s, hs⟩ : ∃ s, rustSeedSignature b S hf 16 (UInt8.toNat 4) zeroSeed (14 + 1) m' = some s := by
    rw [rustSeedSignature_digest _ _ _ _ _ _ _ _ hm', rustPositions.eq_def, if_pos (by decide)]
    exact ⟨_, rfl⟩
  rw [hs] at hn
  rcases hn with ⟨o'', hn, _⟩ | ⟨hn, _⟩
  · exact ⟨o0, _, o, o', _, o'', pk, h0, hcs, e1, e2, hpan, hsg torn, hn, p1⟩
  · exact absurd hn (by decide)

/-- Messages of both kinds. -/
example : rustLong .shake_128 (List.replicate 400 7) ∧ ¬ rustLong .shake_128 [1, 2] := by
  refine ⟨?_, short_not_long (by simp only [rustShort, rustRoom]; decide)⟩
  simp only [rustLong, rustRoom]
  decide +kernel

/-- The hypotheses of `C90_fast_next_rejected` are met, and what it says. -/
example (torn torn' : BdsState) (m m' : Bytes) (hm : rustLong .shake_128 m) (hm' : ¬ rustLong .shake_128 m') :
    ∃ o0 rs o o' sig o'' pk, Rs.XMSSFast.new .debug toySha zeroSeed 4 .shake_128 16 = .ok o0 ∧
      Rs.runFull .debug toySha o0 [.basic (.setIndex 14)] = some (rs, o) ∧
      o.signP .debug toySha torn m = .panic o' ∧ o'.signP .debug toySha torn' m' = .ret sig o'' ∧ o.getPk = .ok pk ∧
      sigIndex sig = 15 := by
  obtain ⟨o0, rs, o, o', sig, o'', pk, h1, h2, h3, h4, h5, h6, h7, h8⟩ := demo_panic .debug toySha .shake_128 m m' hm hm' torn torn'
  exact ⟨o0, rs, o, o', sig, o'', pk, h1, h3, h6, h7, h8,
    (C90_fast_next_rejected .debug .debug toySha zeroSeed 4 .shake_128 16 (by decide) (by decide) goodHeight4 o0 h1 _ h2 rs o h3 16 rfl
      (by omega) 14 h4 m torn o' h6 m' torn' sig o'' h7 pk h8).1⟩

/-- A history for `C90_fast_no_reuse` with a caught panic before a signature, which carries the index after the lost one. -/
example (torn : BdsState) (m m' : Bytes) (hm : rustLong .shake_128 m) (hm' : ¬ rustLong .shake_128 m') :
    ∃ o sig o', o.getIndex = .ok 14 ∧ Rs.runCaught (Rs.XMSSFast.caught .debug toySha) o [(.sign m, torn), (.sign m', torn)] =
      ([none, some (.sig sig)], o') ∧ sigIndex sig = 15 := by
  obtain ⟨o0, rs, o, o', sig, o'', pk, h1, h2, h3, h4, h5, h6, h7, h8⟩ := demo_panic .debug toySha .shake_128 m m' hm hm' torn torn
  refine ⟨o, sig, o'', h4, ?_, (C90_fast_next_rejected .debug .debug toySha zeroSeed 4 .shake_128 16 (by decide) (by decide) goodHeight4
    o0 h1 _ h2 rs o h3 16 rfl (by omega) 14 h4 m torn o' h6 m' torn sig o'' h7 pk h8).1⟩
  simp only [Rs.runCaught, Rs.XMSSFast.caught, h6, Rs.Fate.reply, h7]

/-- A history for `C90_basic_history`: a panic for a message too long, one past the tree, and a signature in between. -/
example (m m' : Bytes) (hm : rustLong .shake_128 m) (hm' : ¬ rustLong .shake_128 m') :
    ∃ o0 rs o sig, Rs.XMSSBasic.new .debug toySha zeroSeed 4 .shake_128 16 = .ok o0 ∧
      Rs.runCaught (Rs.XMSSBasic.caught .debug toySha) o0 [.sign m, .sign m', .setIndex 16, .sign m'] = (rs, o) ∧
      o.getIndex = .ok 17 ∧ rs = [none, some (.sig sig), some (.index 16), none] ∧
      rustSeedSignature .debug toySha .shake_128 16 4 zeroSeed 1 m' = some sig := by
  obtain ⟨o0, h0, h⟩ := C90_basic_history .debug toySha zeroSeed 4 .shake_128 16 (by decide) (by decide) goodHeight4
  obtain ⟨rs, o, i, h1, h2, h3⟩ := h [.sign m, .sign m', .setIndex 16, .sign m'] (Or.inl rfl)
  obtain ⟨s, hs⟩ : ∃ s, rustSeedSignature .debug toySha .shake_128 16 (UInt8.toNat 4) zeroSeed 1 m' = some s := by
    rw [rustSeedSignature_digest _ _ _ _ _ _ _ _ hm', rustPositions.eq_def, if_pos (by decide)]
    exact ⟨_, rfl⟩
  have hl : rustSeedSignature .debug toySha .shake_128 16 (UInt8.toNat 4) zeroSeed 0 m = none := by
    cases hx : rustSeedSignature .debug toySha .shake_128 16 (UInt8.toNat 4) zeroSeed 0 m with
    | none => rfl
    | some s => exact absurd hm (not_long_of_signed hx)
  have h4 : (UInt8.toNat 4) = 4 := rfl
  rw [h4] at hs hl h3
  generalize rustSeedSignature .debug toySha .shake_128 16 4 zeroSeed = σ at *
  have e16 : (16 : UInt32).toNat = 16 := rfl
  simp only [burningLoose, hl, e16] at h3
  obtain ⟨rfl, rfl⟩ := Prod.mk.inj h3
  exact ⟨o0, _, o, s, h0, h1, h2, by simp [hs], hs⟩

end Qrl.Props
