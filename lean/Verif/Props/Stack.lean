import Verif.Model.Stack
import Verif.Props.Fast
import Verif.Props.PoolSeeds
import Verif.Props.Binding
/-!
# C85: how much stack the calls need

The messages given to `verify` and `sign` end up in an automatic array (src/xmss-alt/hash.c:35), so the stack a call needs grows
with the message; the tree `XmssBasic::sign` builds is an automatic array too (src/xmss-alt/algsxmss.c:127), so that call needs
`64 * 2^height` bytes of it. Everything else stays below 16 KiB.
-/

namespace Qrl

/-- What a call needs at its deepest point. -/
def Frame.peak : Frame → Nat
  | .mk bytes calls => bytes + go calls
where
  go : List Frame → Nat
    | [] => 0
    | f :: fs => max f.peak (go fs)

namespace Props
open Outcome

mutual
theorem fits_iff : ∀ (f : Frame) (room : Nat), f.fits room = true ↔ f.peak ≤ room
  | .mk bytes calls, room => by
    rw [Frame.fits, Frame.peak, Bool.and_eq_true, decide_eq_true_iff, fits_go_iff calls (room - bytes)]
    omega
theorem fits_go_iff : ∀ (fs : List Frame) (room : Nat), Frame.fits.go room fs = true ↔ Frame.peak.go fs ≤ room
  | [], room => by simp [Frame.fits.go, Frame.peak.go]
  | f :: fs, room => by
    rw [Frame.fits.go, Frame.peak.go, Bool.and_eq_true, fits_iff f room, fits_go_iff fs room]
    omega
end

theorem peak_mk (b : Nat) (fs : List Frame) : (Frame.mk b fs).peak = b + Frame.peak.go fs := by rw [Frame.peak]

theorem peak_go_le (fs : List Frame) (b : Nat) : Frame.peak.go fs ≤ b ↔ ∀ f ∈ fs, f.peak ≤ b := by
  induction fs with
  | nil => simp [Frame.peak.go]
  | cons f fs ih => rw [Frame.peak.go, Nat.max_le, ih]; simp

theorem peak_go_mem {fs : List Frame} {f : Frame} (h : f ∈ fs) : f.peak ≤ Frame.peak.go fs :=
  (peak_go_le fs _).1 (Nat.le_refl _) f h

theorem peak_one (f : Frame) : Frame.peak.go [f] = f.peak := by simp [Frame.peak.go]

/-- What the hash function itself needs. -/
def primPeak (sha : Nat) : HashFn → Nat
  | .shake_128 => 568
  | .shake_256 => 536
  | .sha2_256 => sha

theorem primPeak_le (sha : Nat) (hf : HashFn) : primPeak sha hf ≤ 568 + sha := by
  cases hf <;> (simp only [primPeak]; omega)

theorem peak_prim (sha : Nat) (hf : HashFn) : (Stk.prim sha hf).peak = primPeak sha hf := by
  cases hf <;> simp [Stk.prim, Stk.shake, primPeak, peak_mk, Frame.peak.go]

theorem peak_coreHash (sha : Nat) (hf : HashFn) (k i : Nat) : (Stk.coreHash sha hf k i).peak = i + 32 + k + primPeak sha hf := by
  rw [Stk.coreHash, peak_mk, peak_one, peak_prim]

theorem peak_prf (sha : Nat) (hf : HashFn) : (Stk.prf sha hf).peak = 96 + primPeak sha hf := by
  rw [Stk.prf, peak_mk, peak_one, peak_coreHash]; omega

theorem peak_hMsg (sha : Nat) (hf : HashFn) (m : Nat) : (Stk.hMsg sha hf m).peak = m + 128 + primPeak sha hf := by
  rw [Stk.hMsg, peak_mk, peak_one, peak_coreHash]; omega

theorem peak_hashH (sha : Nat) (hf : HashFn) : (Stk.hashH sha hf).peak = 320 + primPeak sha hf := by
  simp only [Stk.hashH, peak_mk, Frame.peak.go, peak_prf, peak_coreHash]; omega

theorem peak_hashF (sha : Nat) (hf : HashFn) : (Stk.hashF sha hf).peak = 224 + primPeak sha hf := by
  simp only [Stk.hashF, peak_mk, Frame.peak.go, peak_prf, peak_coreHash]; omega

theorem peak_expandSeed (sha : Nat) (hf : HashFn) (len : Nat) : (Stk.expandSeed sha hf len).peak ≤ 128 + primPeak sha hf := by
  rw [Stk.expandSeed, peak_mk]
  have : Frame.peak.go (List.replicate len (Stk.prf sha hf)) ≤ 96 + primPeak sha hf := by
    rw [peak_go_le]
    intro f hm
    rw [(List.mem_replicate.1 hm).2, peak_prf]
  omega

theorem peak_genChain (sha : Nat) (hf : HashFn) (steps : Nat) : (Stk.genChain sha hf steps).peak ≤ 224 + primPeak sha hf := by
  rw [Stk.genChain, peak_mk]
  have : Frame.peak.go (List.replicate steps (Stk.hashF sha hf)) ≤ 224 + primPeak sha hf := by
    rw [peak_go_le]
    intro f hm
    rw [(List.mem_replicate.1 hm).2, peak_hashF]
  omega

theorem peak_wotsPkgen (sha : Nat) (hf : HashFn) (p : WotsParams) : (Stk.wotsPkgen sha hf p).peak ≤ 224 + primPeak sha hf := by
  rw [Stk.wotsPkgen, peak_mk]
  have : Frame.peak.go (Stk.expandSeed sha hf p.len :: List.replicate p.len (Stk.genChain sha hf (p.w - 1))) ≤ 224 + primPeak sha hf := by
    rw [peak_go_le]
    intro f hm
    rcases List.mem_cons.1 hm with h | h
    · rw [h]; have := peak_expandSeed sha hf p.len; omega
    · rw [(List.mem_replicate.1 h).2]; exact peak_genChain ..
  omega

theorem peak_wotsSign (sha : Nat) (hf : HashFn) (p : WotsParams) (ds : List Nat) :
    (Stk.wotsSign sha hf p ds).peak ≤ Stk.digitArrays p + 224 + primPeak sha hf := by
  rw [Stk.wotsSign, peak_mk]
  have : Frame.peak.go (Stk.expandSeed sha hf p.len :: ds.map (Stk.genChain sha hf)) ≤ 224 + primPeak sha hf := by
    rw [peak_go_le]
    intro f hm
    rcases List.mem_cons.1 hm with h | h
    · rw [h]; have := peak_expandSeed sha hf p.len; omega
    · obtain ⟨d, -, rfl⟩ := List.mem_map.1 h; exact peak_genChain ..
  omega

theorem peak_wotsPkFromSig (sha : Nat) (hf : HashFn) (p : WotsParams) (ds : List Nat) :
    (Stk.wotsPkFromSig sha hf p ds).peak ≤ Stk.digitArrays p + 224 + primPeak sha hf := by
  rw [Stk.wotsPkFromSig, peak_mk]
  have : Frame.peak.go (ds.map fun d => Stk.genChain sha hf (p.w - 1 - d)) ≤ 224 + primPeak sha hf := by
    rw [peak_go_le]
    intro f hm
    obtain ⟨d, -, rfl⟩ := List.mem_map.1 hm
    exact peak_genChain ..
  omega

theorem peak_replicate_hashH (sha : Nat) (hf : HashFn) (n : Nat) :
    Frame.peak.go (List.replicate n (Stk.hashH sha hf)) ≤ 320 + primPeak sha hf := by
  rw [peak_go_le]
  intro f hm
  rw [(List.mem_replicate.1 hm).2, peak_hashH]

theorem peak_lTree (sha : Nat) (hf : HashFn) (p : WotsParams) : (Stk.lTree sha hf p).peak ≤ 320 + primPeak sha hf := by
  rw [Stk.lTree, peak_mk]
  have := peak_replicate_hashH sha hf (p.len - 1)
  omega

theorem peak_lTree_eq (sha : Nat) (hf : HashFn) (p : WotsParams) (hp : 2 ≤ p.len) : (Stk.lTree sha hf p).peak = 320 + primPeak sha hf := by
  refine Nat.le_antisymm (peak_lTree sha hf p) ?_
  rw [Stk.lTree, peak_mk, ← peak_hashH]
  have := peak_go_mem (fs := List.replicate (p.len - 1) (Stk.hashH sha hf)) (f := Stk.hashH sha hf)
    (List.mem_replicate.2 ⟨by omega, rfl⟩)
  omega

theorem peak_validateAuthpath (sha : Nat) (hf : HashFn) (h : Nat) : (Stk.validateAuthpath sha hf h).peak ≤ 384 + primPeak sha hf := by
  rw [Stk.validateAuthpath, peak_mk]
  have := peak_replicate_hashH sha hf h
  omega

theorem peak_verifysig_le (sha : Nat) (hf : HashFn) (p : WotsParams) (m h : Nat) (ds : List Nat) :
    (Stk.verifysig sha hf p m h ds).peak ≤ p.keysize + 320 + (max (m + 128) (Stk.digitArrays p + 384)) + primPeak sha hf := by
  have h1 := peak_wotsPkFromSig sha hf p ds
  have h2 := peak_lTree sha hf p
  have h3 := peak_validateAuthpath sha hf h
  simp only [Stk.verifysig, peak_mk, Frame.peak.go, peak_hMsg]
  omega

theorem peak_verifysig_ge (sha : Nat) (hf : HashFn) (p : WotsParams) (m h : Nat) (ds : List Nat) :
    p.keysize + 448 + m + primPeak sha hf ≤ (Stk.verifysig sha hf p m h ds).peak := by
  simp only [Stk.verifysig, peak_mk, Frame.peak.go, peak_hMsg]
  omega

theorem peak_getSeed (sha : Nat) (hf : HashFn) : (Stk.getSeed sha hf).peak = 128 + primPeak sha hf := by
  simp only [Stk.getSeed, peak_mk, Frame.peak.go, peak_prf]; omega

theorem peak_genLeaf (sha : Nat) (hf : HashFn) (p : WotsParams) (hp : 2 ≤ p.len) :
    (Stk.genLeaf sha hf p).peak = 352 + p.keysize + primPeak sha hf := by
  have h1 := peak_wotsPkgen sha hf p
  simp only [Stk.genLeaf, peak_mk, Frame.peak.go, peak_getSeed, peak_lTree_eq sha hf p hp]
  omega

theorem peak_tree (sha : Nat) (hf : HashFn) (p : WotsParams) (hp : 2 ≤ p.len) (h n : Nat) :
    Frame.peak.go (List.replicate (2 ^ h) (Stk.genLeaf sha hf p) ++ List.replicate n (Stk.hashH sha hf)) =
      352 + p.keysize + primPeak sha hf := by
  refine Nat.le_antisymm ?_ ?_
  · rw [peak_go_le]
    intro f hm
    rcases List.mem_append.1 hm with h | h
    · rw [(List.mem_replicate.1 h).2, peak_genLeaf sha hf p hp]
    · rw [(List.mem_replicate.1 h).2, peak_hashH]; omega
  · rw [← peak_genLeaf sha hf p hp]
    exact peak_go_mem (List.mem_append.2 (Or.inl (List.mem_replicate.2 ⟨Nat.pos_iff_ne_zero.1 (Nat.two_pow_pos h), rfl⟩)))

theorem peak_shake256 : (Stk.shake 136).peak = 536 := by
  simp [Stk.shake, peak_mk, Frame.peak.go]

theorem peak_fastGenkeypair (sha : Nat) (hf : HashFn) (p : XmssParams) (hp : 2 ≤ p.wots.len) :
    (Stk.fastGenkeypair sha hf p).peak = 128 + max 536 (96 + (p.h + 1) * 36 + (352 + p.wots.keysize + primPeak sha hf)) := by
  simp only [Stk.fastGenkeypair, peak_mk, Frame.peak.go, peak_shake256, Stk.treehashSetup, peak_tree sha hf p.wots hp]
  omega

theorem peak_genkeypair (sha : Nat) (hf : HashFn) (p : XmssParams) (hp : 2 ≤ p.wots.len) :
    (Stk.genkeypair sha hf p).peak = 128 + max 536 (96 + (p.h + 1) * 34 + (352 + p.wots.keysize + primPeak sha hf)) := by
  simp only [Stk.genkeypair, peak_mk, Frame.peak.go, peak_shake256, Stk.treehash, peak_tree sha hf p.wots hp]
  omega

theorem peak_computeAuthpath (sha : Nat) (hf : HashFn) (p : XmssParams) (hp : 2 ≤ p.wots.len) :
    (Stk.computeAuthpath sha hf p).peak = 64 * 2 ^ p.h + 448 + p.wots.keysize + primPeak sha hf := by
  simp only [Stk.computeAuthpath, peak_mk, peak_tree sha hf p.wots hp]
  omega

theorem peak_treehashUpdate (sha : Nat) (hf : HashFn) (p : XmssParams) (hp : 2 ≤ p.wots.len) (merges : Nat) :
    (Stk.treehashUpdate sha hf p merges).peak = 512 + p.wots.keysize + primPeak sha hf := by
  have h1 := peak_replicate_hashH sha hf merges
  simp only [Stk.treehashUpdate, peak_mk, Frame.peak.go, peak_genLeaf sha hf p.wots hp]
  omega

theorem peak_step (sha : Nat) (hf : HashFn) (p : XmssParams) (hp : 2 ≤ p.wots.len) (r : Bool × List Nat) :
    ∀ f ∈ Stk.step sha hf p r, f.peak ≤ 512 + p.wots.keysize + primPeak sha hf := by
  intro f hm
  simp only [Stk.step, List.mem_cons, List.not_mem_nil, or_false] at hm
  rcases hm with rfl | rfl
  · rw [Stk.bdsRound, peak_mk, peak_one]
    cases r.1
    · simp only [Bool.false_eq_true, if_false, peak_hashH]; omega
    · simp only [if_true, peak_genLeaf sha hf p.wots hp]; omega
  · rw [Stk.bdsTreehashUpdate, peak_mk, Nat.zero_add, peak_go_le]
    intro f hm
    obtain ⟨m, -, rfl⟩ := List.mem_map.1 hm
    rw [peak_treehashUpdate sha hf p hp]

theorem peak_fastUpdate (sha : Nat) (hf : HashFn) (p : XmssParams) (hp : 2 ≤ p.wots.len) (rs : List (Bool × List Nat)) :
    (Stk.fastUpdate sha hf p rs).peak ≤ 608 + p.wots.keysize + primPeak sha hf := by
  rw [Stk.fastUpdate, peak_mk]
  have : Frame.peak.go (rs.flatMap (Stk.step sha hf p)) ≤ 512 + p.wots.keysize + primPeak sha hf := by
    rw [peak_go_le]
    intro f hm
    obtain ⟨r, -, hr⟩ := List.mem_flatMap.1 hm
    exact peak_step sha hf p hp r f hr
  omega

theorem peak_fastSignmsg_le (sha : Nat) (hf : HashFn) (p : XmssParams) (hp : 2 ≤ p.wots.len) (m : Nat) (ds : List Nat)
    (last : Bool) (r : Bool × List Nat) (hd : Stk.digitArrays p.wots ≤ p.wots.keysize) :
    (Stk.fastSignmsg sha hf p m ds last r).peak ≤ 352 + max (m + 128) (512 + p.wots.keysize) + primPeak sha hf := by
  rw [Stk.fastSignmsg, peak_mk]
  have : Frame.peak.go ([Stk.prf sha hf, Stk.hMsg sha hf m, Stk.getSeed sha hf, Stk.wotsSign sha hf p.wots ds] ++
      if last then [] else Stk.step sha hf p r) ≤ max (m + 128) (512 + p.wots.keysize) + primPeak sha hf := by
    rw [peak_go_le]
    intro f hm
    rcases List.mem_append.1 hm with h | h
    · simp only [List.mem_cons, List.not_mem_nil, or_false] at h
      rcases h with rfl | rfl | rfl | rfl
      · rw [peak_prf]; omega
      · rw [peak_hMsg]; omega
      · rw [peak_getSeed]; omega
      · have := peak_wotsSign sha hf p.wots ds; omega
    · cases last
      · have := peak_step sha hf p hp r f h; omega
      · cases h
  omega

theorem peak_fastSignmsg_ge (sha : Nat) (hf : HashFn) (p : XmssParams) (m : Nat) (ds : List Nat) (last : Bool)
    (r : Bool × List Nat) : 480 + m + primPeak sha hf ≤ (Stk.fastSignmsg sha hf p m ds last r).peak := by
  rw [Stk.fastSignmsg, peak_mk]
  have := peak_go_mem (fs := [Stk.prf sha hf, Stk.hMsg sha hf m, Stk.getSeed sha hf, Stk.wotsSign sha hf p.wots ds] ++
      if last then [] else Stk.step sha hf p r) (f := Stk.hMsg sha hf m) (by simp)
  rw [peak_hMsg] at this
  omega

theorem peak_signmsg (sha : Nat) (hf : HashFn) (p : XmssParams) (hp : 2 ≤ p.wots.len) (m : Nat) (ds : List Nat)
    (hd : Stk.digitArrays p.wots ≤ p.wots.keysize) :
    (Stk.signmsg sha hf p m ds).peak = 384 + max (m + 128) (64 * 2 ^ p.h + 448 + p.wots.keysize) + primPeak sha hf := by
  have h1 := peak_wotsSign sha hf p.wots ds
  have h2 := Nat.two_pow_pos p.h
  simp only [Stk.signmsg, peak_mk, Frame.peak.go, peak_prf, peak_hMsg, peak_getSeed, peak_computeAuthpath sha hf p hp]
  omega

/-- The arrays of the four parameter sets. -/
theorem stack_params {w : Nat} (hw : w = 2 ∨ w = 4 ∨ w = 16 ∨ w = 256) {p : WotsParams} (h : wotsSetParams w = ok p) :
    2 ≤ p.len ∧ Stk.digitArrays p ≤ p.keysize ∧ Stk.digitArrays p ≤ 1098 ∧ 1088 ≤ p.keysize ∧ p.keysize ≤ 8480 := by
  rcases hw with rfl | rfl | rfl | rfl
  · rw [params2] at h; cases h; decide
  · rw [params4] at h; cases h; decide
  · rw [params16] at h; cases h; decide
  · rw [params256] at h; cases h; decide

theorem not_fits {f : Frame} {room : Nat} (h : room < f.peak) : f.fits room = false := by
  cases e : f.fits room
  · rfl
  · have := (fits_iff f room).1 e; omega

/-- What `verifyReach` says about `verify`: without a call of `xmss_Verifysig` the answer is false, an exception or undefined,
with one it is the answer of that call. -/
theorem verify_reach (S : Sha256) (m s pk : Bytes) (w : Nat) :
    verify S m s pk w = (match verifyReach s pk w with
      | .ok none => ok false
      | .ok (some (hf, p, h)) => catchInvalid (do
          let (rc, _) ← xmssVerifysig S hf p m s (pk.drop 3) h
          ok (rc == 0)) false
      | .throw e => throw e
      | .ub => ub) := by
  unfold verify verifyFull verifyReach
  by_cases h1 : pk.length ≠ 67
  · simp [h1, catchInvalid]
  simp only [h1, if_false]
  cases calculateSignatureBaseSize w with
  | throw e => cases e <;> simp [catchInvalid]
  | ub => simp [catchInvalid]
  | ok base =>
    simp only [ok_bind]
    by_cases h2 : s.length > base + 254 * 32
    · simp [h2, catchInvalid]
    simp only [h2, if_false]
    cases Descriptor.fromExtendedPK pk with
    | throw e => cases e <;> simp [catchInvalid]
    | ub => simp [catchInvalid]
    | ok d =>
      simp only [ok_bind]
      by_cases h3 : d.signatureType ≠ sigTypeXMSS
      · simp [h3, catchInvalid]
      simp only [h3, if_false]
      cases getHeightFromSigSize s.length w with
      | throw e => cases e <;> simp [catchInvalid]
      | ub => simp [catchInvalid]
      | ok hh =>
        simp only [ok_bind]
        by_cases h4 : hh = 0 ∨ d.height ≠ hh
        · simp [h4, catchInvalid]
        simp only [h4, if_false]
        by_cases h5 : 2 ≥ hh.toNat ∨ (hh.toNat - 2) % 2 ≠ 0
        · simp only [h5, if_true, catchInvalid, ok_bind]
        simp only [h5, if_false]
        cases xmssSetParams hh.toNat w with
        | throw e => cases e <;> simp [catchInvalid]
        | ub => simp [catchInvalid]
        | ok p =>
          simp only [ok_bind, withHash]
          cases HashFn.ofNat? d.hashFunction with
          | none => simp [catchInvalid]
          | some hf =>
            simp only [catchInvalid]
            cases xmssVerifysig S hf p.wots m s (pk.drop 3) hh.toNat with
            | throw e => cases e <;> simp
            | ub => simp
            | ok r => simp

/-- The inputs on which `verify` calls `xmss_Verifysig`. -/
theorem verifyReach_eq {sig epk : Bytes} {w : Nat} (hw : w = 2 ∨ w = 4 ∨ w = 16 ∨ w = 256) {p : WotsParams}
    (hp : wotsSetParams w = ok p) : verifyReach sig epk w =
      if WellFormed w sig epk then
        match HashFn.ofNat? (keyHash epk) with
        | some hf => ok (some (hf, p, keyHeight epk))
        | none => .ub
      else ok none := by
  obtain ⟨p', k, q, hp', hs, h1, h2, hk, hb⟩ := base_ok hw
  rw [hp] at hp'
  cases hp'
  rw [verifyReach]
  by_cases hl : epk.length = 67
  swap
  · rw [if_neg (show ¬ WellFormed w sig epk from fun h => hl h.1), if_pos hl]; rfl
  simp only [hl, ne_eq, not_true, if_false, hb, ok_bind]
  have hkh : keyHeight epk ≤ 30 := by rw [keyHeight]; omega
  have hke : keyHeight epk % 2 = 0 := by rw [keyHeight]; omega
  have hku : (UInt8.ofNat (keyHeight epk)).toNat = keyHeight epk := by
    simp only [UInt8.toNat_ofNat']; omega
  by_cases hbig : sig.length > 4 + 32 + 32 * p.len + 254 * 32
  · rw [if_pos hbig, if_neg (by simp only [WellFormed, hs.len]; omega)]; rfl
  rw [if_neg hbig, fromExtendedPK_eq epk hl, ok_bind]
  simp only [sigTypeXMSS, not_true, if_false]
  rw [C22_height_from_size w hw, hs.len]
  by_cases hbad : sig.length < 4 + 32 + 32 * p.len ∨ sig.length % 32 ≠ 4
  · rw [if_pos hbad, if_neg (by simp only [WellFormed, hs.len]; omega)]; rfl
  rw [if_neg hbad, ok_bind]
  generalize hH : (sig.length - (4 + 32 + 32 * p.len)) / 32 = H
  have hHl : H ≤ 254 := by omega
  have hsl : sig.length = 4 + 32 + 32 * p.len + 32 * H := by omega
  have hHu : (UInt8.ofNat H).toNat = H := by simp only [UInt8.toNat_ofNat']; omega
  by_cases hz : UInt8.ofNat H = 0 ∨ UInt8.ofNat (keyHeight epk) ≠ UInt8.ofNat H
  · rw [if_pos hz, if_neg]
    · rfl
    · simp only [WellFormed, hs.len]
      intro hwf
      rcases hz with hz | hz
      · have := congrArg UInt8.toNat hz
        rw [hHu] at this
        have h0 : H = 0 := this
        omega
      · apply hz
        congr 1; omega
  · rw [if_neg hz]
    have hHk : keyHeight epk = H := by
      have : UInt8.ofNat (keyHeight epk) = UInt8.ofNat H := Classical.byContradiction fun h => hz (Or.inr h)
      have := congrArg UInt8.toNat this
      rw [hHu, hku] at this; exact this
    rw [hHu]
    by_cases h2H : 2 ≥ H ∨ (H - 2) % 2 ≠ 0
    · rw [if_pos h2H, if_neg (by simp only [WellFormed, hs.len]; omega)]; rfl
    · rw [if_neg h2H, if_pos (by simp only [WellFormed, hs.len]; omega)]
      rw [xmssSetParams, if_neg h2H, hp, ok_bind, ok_bind]
      simp only [withHash]
      cases hof : HashFn.ofNat? (keyHash epk) with
      | none => rfl
      | some hf =>
        dsimp only
        rw [hHk]
        rfl

theorem wots_some {w : Nat} (hw : w = 2 ∨ w = 4 ∨ w = 16 ∨ w = 256) : ∃ p, wotsSetParams w = ok p := by
  rcases hw with rfl | rfl | rfl | rfl
  · exact ⟨_, params2⟩
  · exact ⟨_, params4⟩
  · exact ⟨_, params16⟩
  · exact ⟨_, params256⟩

/-- **C85.** `verify` never needs more stack than the message, 16 KiB and what the SHA-256 library needs. -/
theorem C85_verify_bound (sha : Nat) (m s pk : Bytes) (w : Nat) (hw : w = 2 ∨ w = 4 ∨ w = 16 ∨ w = 256) (ds : List Nat)
    (room : Nat) (hr : m.length + 16384 + sha ≤ room) : (verifyFrame sha m s pk w ds).fits room = true := by
  obtain ⟨p, hp⟩ := wots_some hw
  rw [fits_iff, verifyFrame, verifyReach_eq hw hp]
  by_cases hwf : WellFormed w s pk
  · rw [if_pos hwf]
    cases HashFn.ofNat? (keyHash pk) with
    | none => simp [peak_mk, Frame.peak.go]
    | some hf =>
      obtain ⟨h1, h2, h3, h4, h5⟩ := stack_params hw hp
      have := peak_verifysig_le sha hf p m.length (keyHeight pk) ds
      have := primPeak_le sha hf
      simp only [peak_mk, peak_one]
      omega
  · rw [if_neg hwf]
    simp [peak_mk, Frame.peak.go]

/-- **C85, to the byte.** `verify` of a message of at least 1400 bytes needs the message, 448 bytes, a one-time public key and the
hash function if key and signature have fitting lengths, and nothing otherwise. -/
theorem C85_verify_exact (sha : Nat) (m s pk : Bytes) (w : Nat) (hw : w = 2 ∨ w = 4 ∨ w = 16 ∨ w = 256) (ds : List Nat)
    (hm : 1400 ≤ m.length) (room : Nat) (hf : HashFn) (hk : HashFn.ofNat? (keyHash pk) = some hf) :
    (verifyFrame sha m s pk w ds).fits room = true ↔
      ¬ WellFormed w s pk ∨ m.length + 448 + 32 * Spec.lenW w + primPeak sha hf ≤ room := by
  obtain ⟨p, k, q, hp, hs, _, _, hks, _⟩ := base_ok hw
  rw [fits_iff, verifyFrame, verifyReach_eq hw hp, hk, hs.len, ← hks]
  by_cases hwf : WellFormed w s pk
  · rw [if_pos hwf]
    obtain ⟨h1, h2, h3, h4, h5⟩ := stack_params hw hp
    have hle := peak_verifysig_le sha hf p m.length (keyHeight pk) ds
    have hge := peak_verifysig_ge sha hf p m.length (keyHeight pk) ds
    simp only [peak_mk, peak_one, hwf, not_true, false_or]
    omega
  · rw [if_neg hwf]
    simp [peak_mk, Frame.peak.go, hwf]

/-- **C85** (refuted: `verify` answers for a message of any size). On a stack of any size `verify` overflows it on every message at
least that long, with any key that names a supported hash function and any bytes of the fitting length as a signature. -/
theorem C85_verify_overflow_refuted (s pk : Bytes) (w : Nat) (hw : w = 2 ∨ w = 4 ∨ w = 16 ∨ w = 256) (hwf : WellFormed w s pk)
    (hk : keyHash pk ≤ 2) (sha room : Nat) (m : Bytes) (ds : List Nat) (hm : room < m.length + 448 + 32 * Spec.lenW w) :
    (verifyFrame sha m s pk w ds).fits room = false := by
  obtain ⟨hf, hf1, -⟩ := ofNat?_of_le hk
  obtain ⟨p, k, q, hp, hs, _, _, hks, _⟩ := base_ok hw
  refine not_fits ?_
  rw [verifyFrame, verifyReach_eq hw hp, if_pos hwf, hf1]
  have hge := peak_verifysig_ge sha hf p m.length (keyHeight pk) ds
  rw [hs.len, ← hks] at hm
  simp only [peak_mk, peak_one]
  omega

/-- **C85.** Building an `XmssFast` of any height needs less than 8 KiB of stack. -/
theorem C85_fast_new (S : Sha256) (seed : Bytes) (height : UInt8) (hf : HashFn) (af : Nat) (o : XmssFast)
    (hnew : XmssFast.new S seed height hf.toNat af = ok o) (sha room : Nat) (hr : 8192 + sha ≤ room) :
    (fastNewFrame sha hf o.params).fits room = true := by
  obtain ⟨_, ⟨_, h30, _⟩, f, hf1, hf2, _, _, _, _, p, k, q, hp, e5, _⟩ := fast_fresh hnew
  obtain ⟨h1, h2, h3, h4, h5⟩ := stack_params (by omega) hp
  rw [params16] at hp
  cases hp
  have := primPeak_le sha hf
  rw [fits_iff, fastNewFrame, peak_mk, peak_one, peak_fastGenkeypair sha hf _ (by rw [e5]; exact h1), e5]
  simp only
  omega

/-- The parameters of an `XmssFast` at any point of any history. -/
theorem fast_params {S : Sha256} {seed : Bytes} {height : UInt8} {hf af : Nat} {o0 o : XmssFast} {cs : List Call} {rs : List Reply}
    (hnew : XmssFast.new S seed height hf af = ok o0) (hrun : runCalls (XmssFast.call S) o0 cs = some (rs, o)) :
    o.params = ⟨⟨64, 3, 67, 16, 4, 2144⟩, height.toNat⟩ := by
  obtain ⟨_, _, _, _, _, _, _, _, _, p, _, _, hp, e5, _⟩ := fast_fresh hnew
  rw [params16] at hp
  cases hp
  have := (C26_fast_stable S seed height hf af o0 hnew cs rs o hrun).1
  have h2 : o.toXmssBase.params = o0.toXmssBase.params := by rw [this]
  exact h2.trans e5

/-- **C85.** At any point of any history, `XmssFast::setIndex` needs less than 4 KiB of stack, whatever the height and however many
one-time keys it skips. -/
theorem C85_fast_set_index (S : Sha256) (seed : Bytes) (height : UInt8) (hf : HashFn) (af : Nat) (o0 o : XmssFast)
    (hnew : XmssFast.new S seed height hf.toNat af = ok o0) (cs : List Call) (rs : List Reply)
    (hrun : runCalls (XmssFast.call S) o0 cs = some (rs, o)) (skipped : List (Bool × List Nat)) (sha room : Nat)
    (hr : 4096 + sha ≤ room) : (fastSetIndexFrame sha hf o.params skipped).fits room = true := by
  have e := fast_params hnew hrun
  have h67 : 2 ≤ o.params.wots.len := by rw [e]; exact (by decide : 2 ≤ 67)
  have hdk : Stk.digitArrays o.params.wots ≤ o.params.wots.keysize := by rw [e]; simp [Stk.digitArrays]
  have := peak_fastUpdate sha hf o.params h67 skipped
  have := primPeak_le sha hf
  rw [fits_iff, fastSetIndexFrame, peak_mk, peak_one]
  rw [e] at *
  simp only at *
  omega

/-- **C85.** At any point of any history, `XmssFast::sign` needs the message and between 480 bytes and 4 KiB of stack, whatever the
height. So it overflows a stack no larger than the message. -/
theorem C85_fast_sign (S : Sha256) (seed : Bytes) (height : UInt8) (hf : HashFn) (af : Nat) (o0 o : XmssFast)
    (hnew : XmssFast.new S seed height hf.toNat af = ok o0) (cs : List Call) (rs : List Reply)
    (hrun : runCalls (XmssFast.call S) o0 cs = some (rs, o)) (m : Bytes) (ds : List Nat) (last : Bool) (r : Bool × List Nat)
    (sha room : Nat) :
    (m.length + 4096 + sha ≤ room → (fastSignFrame sha hf o.params m.length ds last r).fits room = true) ∧
      (room < m.length + 480 → (fastSignFrame sha hf o.params m.length ds last r).fits room = false) := by
  have e := fast_params hnew hrun
  have h67 : 2 ≤ o.params.wots.len := by rw [e]; exact (by decide : 2 ≤ 67)
  have hdk : Stk.digitArrays o.params.wots ≤ o.params.wots.keysize := by rw [e]; simp [Stk.digitArrays]
  have hge := peak_fastSignmsg_ge sha hf o.params m.length ds last r
  have hle := peak_fastSignmsg_le sha hf o.params h67 m.length ds last r hdk
  have hu := peak_fastUpdate sha hf o.params h67 []
  have hP := primPeak_le sha hf
  rw [e] at *
  simp only at *
  constructor
  · intro hr
    rw [fits_iff, fastSignFrame]
    simp only [peak_mk, Frame.peak.go]
    omega
  · intro hr
    refine not_fits ?_
    rw [fastSignFrame]
    simp only [peak_mk, Frame.peak.go]
    omega

/-- The parameters of an `XmssBasic` at any point of any history. -/
theorem basic_params {S : Sha256} {seed : Bytes} {height : UInt8} {hf : HashFn} {af w : Nat}
    (hw : w = 2 ∨ w = 4 ∨ w = 16 ∨ w = 256) (hs : seed.length = 48) (hh : GoodHeight height) (h24 : height.toNat ≤ 24)
    {o0 o : XmssBase} (hnew : XmssBasic.new S seed height hf.toNat af w = ok o0) {cs : List Call} {rs : List Reply}
    (hrun : runCalls (XmssBasic.call S) o0 cs = some (rs, o)) :
    ∃ p, wotsSetParams w = ok p ∧ o0.params = ⟨p, height.toNat⟩ ∧ o.params = ⟨p, height.toNat⟩ := by
  have h1 := (C26_basic_stable S seed height hf af w hw hs hh h24 o0 hnew cs rs o hrun).1
  have h2 : o.params = o0.params := by rw [h1]
  obtain ⟨p, k, q, hp, e⟩ : ∃ p k q, wotsSetParams w = ok p ∧ XmssBasic.new S seed height hf.toNat af w = ok
      { params := ⟨p, height.toNat⟩, hashFunction := hf.toNat, addrFormat := af, height := height,
        sk := k, seed := q } := by
    obtain ⟨p, hp⟩ : ∃ p, wotsSetParams w = ok p := by
      rcases hw with rfl | rfl | rfl | rfl
      · exact ⟨_, params2⟩
      · exact ⟨_, params4⟩
      · exact ⟨_, params16⟩
      · exact ⟨_, params256⟩
    have h3 := hnew
    obtain ⟨h4, h30, he⟩ := hh
    have hc : ¬ (2 ≥ height.toNat ∨ (height.toNat - 2) % 2 ≠ 0) := by omega
    simp only [XmssBasic.new, baseCtorCheck, hs, ne_eq, not_true, if_false, show ¬ height.toNat > 254 by omega, ok_bind] at h3
    rw [if_neg hc, xmssSetParams, if_neg hc, hp, ok_bind, ok_bind, withHash] at h3
    rw [hnew]
    cases e : HashFn.ofNat? hf.toNat with
    | none => rw [e] at h3; cases h3
    | some hf' =>
      rw [e] at h3
      simp only at h3
      obtain ⟨sk, -, h3⟩ := bind_eq_ok.1 h3
      cases h3
      exact ⟨p, sk, seed, hp, rfl⟩
  rw [e] at hnew
  cases hnew
  exact ⟨p, hp, rfl, h2⟩

/-- **C85.** At any point of any history, `XmssBasic::sign` needs 64 bytes of stack for each one-time key of the wallet, or the message:
it fits exactly if the larger of the two does, with the rest. -/
theorem C85_basic_sign (S : Sha256) (seed : Bytes) (height : UInt8) (hf : HashFn) (af w : Nat)
    (hw : w = 2 ∨ w = 4 ∨ w = 16 ∨ w = 256) (hs : seed.length = 48) (hh : GoodHeight height) (h24 : height.toNat ≤ 24)
    (o0 o : XmssBase) (hnew : XmssBasic.new S seed height hf.toNat af w = ok o0) (cs : List Call) (rs : List Reply)
    (hrun : runCalls (XmssBasic.call S) o0 cs = some (rs, o)) (m : Bytes) (ds : List Nat) (sha room : Nat) :
    (max m.length (64 * 2 ^ height.toNat) + 16384 + sha ≤ room → (basicSignFrame sha hf o.params m.length ds).fits room = true) ∧
      (room < max m.length (64 * 2 ^ height.toNat) + 512 → (basicSignFrame sha hf o.params m.length ds).fits room = false) := by
  obtain ⟨p, hp, -, h2⟩ := basic_params hw hs hh h24 hnew hrun
  obtain ⟨i1, i2, i3, i4, i5⟩ := stack_params hw hp
  have hP := primPeak_le sha hf
  have hpk := peak_signmsg sha hf o.params (by rw [h2]; exact i1) m.length ds (by rw [h2]; exact i2)
  rw [h2] at *
  simp only at *
  constructor
  · intro hr
    rw [fits_iff, basicSignFrame, peak_mk, peak_one, hpk]
    omega
  · intro hr
    refine not_fits ?_
    rw [basicSignFrame, peak_mk, peak_one, hpk]
    omega

/-- **C85** (refuted: a wallet that can be built can sign). With a stack of 8 MiB, the usual size, an `XmssBasic` of height 18 or more
cannot sign at all; up to height 16 it can, for messages up to 8,300,000 bytes. -/
theorem C85_basic_tall_refuted (S : Sha256) (seed : Bytes) (height : UInt8) (hf : HashFn) (af w : Nat)
    (hw : w = 2 ∨ w = 4 ∨ w = 16 ∨ w = 256) (hs : seed.length = 48) (hh : GoodHeight height) (h24 : height.toNat ≤ 24)
    (o0 o : XmssBase) (hnew : XmssBasic.new S seed height hf.toNat af w = ok o0) (cs : List Call) (rs : List Reply)
    (hrun : runCalls (XmssBasic.call S) o0 cs = some (rs, o)) (m : Bytes) (ds : List Nat) (sha : Nat) :
    (18 ≤ height.toNat → (basicSignFrame sha hf o.params m.length ds).fits (8 * 2 ^ 20) = false) ∧
      (height.toNat ≤ 16 → m.length ≤ 8300000 → sha ≤ 4096 →
        (basicSignFrame sha hf o.params m.length ds).fits (8 * 2 ^ 20) = true) := by
  have h := C85_basic_sign S seed height hf af w hw hs hh h24 o0 o hnew cs rs hrun m ds sha (8 * 2 ^ 20)
  constructor
  · intro hg
    refine h.2 ?_
    have : 2 ^ 18 ≤ 2 ^ height.toNat := Nat.pow_le_pow_right (by omega) hg
    omega
  · intro hg hm hsha
    refine h.1 ?_
    have : 2 ^ height.toNat ≤ 2 ^ 16 := Nat.pow_le_pow_right (by omega) hg
    omega

/-- A message that a wallet signs on some stack can be too long for `verify` on the same stack (which keeps the one-time public key
there as well). -/
theorem C85_sign_without_verify (S : Sha256) (seed : Bytes) (height : UInt8) (hf : HashFn) (af : Nat) (o0 : XmssFast)
    (hnew : XmssFast.new S seed height hf.toNat af = ok o0) (m : Bytes) (hm : 4000 ≤ m.length) (sha : Nat) (hsha : sha ≤ 2000) :
    ∃ sig o' pk, o0.sign S m = .ret sig o' ∧ o0.getPK = ok pk ∧ verify S m sig pk 16 = ok true ∧
      ∃ room, (∀ ds last r, (fastSignFrame sha hf o0.params m.length ds last r).fits room = true) ∧
        ∀ ds, (verifyFrame sha m sig pk 16 ds).fits room = false := by
  have hi0 : o0.getIndex = ok 0 := by
    obtain ⟨_, _, _, _, _, _, _, _, _, _, _, _, _, _, H⟩ := fast_fresh hnew
    have := H.getIndex 0 (Nat.zero_le _)
    rwa [fastAt_zero H] at this
  have h30 : height.toNat ≤ 30 := (fast_fresh hnew).2.1.2.1
  obtain ⟨f, sig, o', pk, hff, h1, h2, h3, h4, h5, h6, h7⟩ := C12_fast_sign_verifies S seed height hf.toNat af o0 hnew [] [] o0 rfl 0 hi0
    (Nat.two_pow_pos _) m
  rw [ofNat?_toNat] at hff
  cases hff
  refine ⟨sig, o', pk, h1, h5, h6, 480 + m.length + primPeak sha hf, ?_, ?_⟩
  · intro ds last r
    have e := fast_params (o := o0) (cs := []) (rs := []) hnew rfl
    have h67 : 2 ≤ o0.params.wots.len := by rw [e]; exact (by decide : 2 ≤ 67)
    have hdk : Stk.digitArrays o0.params.wots ≤ o0.params.wots.keysize := by rw [e]; simp [Stk.digitArrays]
    have hle := peak_fastSignmsg_le sha hf o0.params h67 m.length ds last r hdk
    have hu := peak_fastUpdate sha hf o0.params h67 []
    rw [e] at *
    simp only at *
    rw [fits_iff, fastSignFrame]
    simp only [peak_mk, Frame.peak.go]
    omega
  · intro ds
    obtain ⟨hwf, g, hg, -⟩ := verify_true_iff (by omega) h6
    have hk : keyHash pk ≤ 2 := by
      revert hg
      generalize keyHash pk = n
      intro hg
      match n, hg with
      | 0, _ => omega
      | 1, _ => omega
      | 2, _ => omega
      | n + 3, hg => cases hg
    refine C85_verify_overflow_refuted sig pk 16 (by omega) hwf hk sha _ m ds ?_
    have h8 : primPeak sha hf ≤ 2000 := by cases hf <;> simp only [primPeak] <;> omega
    rw [lenW_values.2.2.1]
    omega

/-- **C85, to the byte.** Building an `XmssFast` fits exactly if 2756 bytes, 36 more for each level, and the hash function fit. -/
theorem C85_fast_new_exact (S : Sha256) (seed : Bytes) (height : UInt8) (hf : HashFn) (af : Nat) (o : XmssFast)
    (hnew : XmssFast.new S seed height hf.toNat af = ok o) (sha room : Nat) :
    (fastNewFrame sha hf o.params).fits room = true ↔ 2756 + 36 * height.toNat + primPeak sha hf ≤ room := by
  have e := fast_params (o := o) (cs := []) (rs := []) hnew rfl
  have h67 : 2 ≤ o.params.wots.len := by rw [e]; exact (by decide : 2 ≤ 67)
  rw [fits_iff, fastNewFrame, peak_mk, peak_one, peak_fastGenkeypair sha hf _ h67, e]
  simp only
  omega

/-- **C85, to the byte.** `XmssFast::sign` of a message of at least 2528 bytes. -/
theorem C85_fast_sign_exact (S : Sha256) (seed : Bytes) (height : UInt8) (hf : HashFn) (af : Nat) (o0 o : XmssFast)
    (hnew : XmssFast.new S seed height hf.toNat af = ok o0) (cs : List Call) (rs : List Reply)
    (hrun : runCalls (XmssFast.call S) o0 cs = some (rs, o)) (m : Bytes) (hm : 2528 ≤ m.length) (ds : List Nat) (last : Bool)
    (r : Bool × List Nat) (sha room : Nat) :
    (fastSignFrame sha hf o.params m.length ds last r).fits room = true ↔ m.length + 480 + primPeak sha hf ≤ room := by
  have e := fast_params hnew hrun
  have h67 : 2 ≤ o.params.wots.len := by rw [e]; exact (by decide : 2 ≤ 67)
  have hdk : Stk.digitArrays o.params.wots ≤ o.params.wots.keysize := by rw [e]; simp [Stk.digitArrays]
  have hge := peak_fastSignmsg_ge sha hf o.params m.length ds last r
  have hle := peak_fastSignmsg_le sha hf o.params h67 m.length ds last r hdk
  have hu := peak_fastUpdate sha hf o.params h67 []
  rw [e] at *
  simp only at *
  rw [fits_iff, fastSignFrame]
  simp only [peak_mk, Frame.peak.go]
  omega

/-- **C85, to the byte.** Building an `XmssBasic`, and signing with it at any point of any history. -/
theorem C85_basic_exact (S : Sha256) (seed : Bytes) (height : UInt8) (hf : HashFn) (af w : Nat)
    (hw : w = 2 ∨ w = 4 ∨ w = 16 ∨ w = 256) (hs : seed.length = 48) (hh : GoodHeight height) (h24 : height.toNat ≤ 24)
    (o0 o : XmssBase) (hnew : XmssBasic.new S seed height hf.toNat af w = ok o0) (cs : List Call) (rs : List Reply)
    (hrun : runCalls (XmssBasic.call S) o0 cs = some (rs, o)) (m : Bytes) (ds : List Nat) (sha room : Nat) :
    ((basicNewFrame sha hf o0.params).fits room = true ↔
        610 + 34 * height.toNat + o0.params.wots.keysize + primPeak sha hf ≤ room) ∧
      ((basicSignFrame sha hf o.params m.length ds).fits room = true ↔
        max (m.length + 512) (64 * 2 ^ height.toNat + 832 + o0.params.wots.keysize) + primPeak sha hf ≤ room) := by
  obtain ⟨p, hp, e0, e⟩ := basic_params hw hs hh h24 hnew hrun
  obtain ⟨i1, i2, i3, i4, i5⟩ := stack_params hw hp
  have h1 := peak_genkeypair sha hf o0.params (by rw [e0]; exact i1)
  have h2 := peak_signmsg sha hf o.params (by rw [e]; exact i1) m.length ds (by rw [e]; exact i2)
  rw [fits_iff, basicNewFrame, peak_mk, peak_one, h1, fits_iff, basicSignFrame, peak_mk, peak_one, h2, e, e0]
  simp only
  constructor <;> omega

/-- The hypotheses are met: wallets of height 4, their histories, a message of 4000 bytes. -/
example : ∃ o0, XmssFast.new toySha zeroSeed 4 1 0 = ok o0 ∧
    ∃ sig o' pk, o0.sign toySha (List.replicate 4000 7) = .ret sig o' ∧ o0.getPK = ok pk ∧
      verify toySha (List.replicate 4000 7) sig pk 16 = ok true ∧
      ∃ room, (∀ ds last r, (fastSignFrame 500 .shake_128 o0.params 4000 ds last r).fits room = true) ∧
        ∀ ds, (verifyFrame 500 (List.replicate 4000 7) sig pk 16 ds).fits room = false := by
  obtain ⟨o0, h⟩ := (C39_fast_succeeds toySha zeroSeed 4 1 0).mpr ⟨rfl, goodHeight4, by omega⟩
  obtain ⟨sig, o', pk, h1, h2, h3, room, h4, h5⟩ := C85_sign_without_verify toySha zeroSeed 4 .shake_128 0 o0 h (List.replicate 4000 7)
    (by rw [List.length_replicate]) 500 (by omega)
  rw [List.length_replicate] at h4
  exact ⟨o0, h, sig, o', pk, h1, h2, h3, room, h4, h5⟩

example : ∃ o0 rs o, XmssFast.new toySha zeroSeed 4 1 0 = ok o0 ∧
    runCalls (XmssFast.call toySha) o0 [.sign [1], .setIndex 9] = some (rs, o) ∧
    (fastSetIndexFrame 500 .shake_128 o.params [(true, [0, 1]), (false, [])]).fits 5000 = true := by
  obtain ⟨o0, h⟩ := (C39_fast_succeeds toySha zeroSeed 4 1 0).mpr ⟨rfl, goodHeight4, by omega⟩
  obtain ⟨o, h1, h2⟩ := C19_fast_refines_counter toySha zeroSeed 4 .shake_128 0 o0 h [.sign [1], .setIndex 9]
  exact ⟨o0, _, o, h, h1, C85_fast_set_index toySha zeroSeed 4 .shake_128 0 o0 o h _ _ h1 _ 500 5000 (by omega)⟩

/-- A made-up key of height 4 and a made-up signature, both all zeros but for the descriptor. -/
example : WellFormed 16 (List.replicate 2308 0) ([1, 2, 0] ++ List.replicate 64 0) ∧
    keyHash ([1, 2, 0] ++ List.replicate 64 0) ≤ 2 ∧
    ∀ ds, (verifyFrame 500 (List.replicate (8 * 2 ^ 20) 0) (List.replicate 2308 0) ([1, 2, 0] ++ List.replicate 64 0) 16 ds).fits
      (8 * 2 ^ 20) = false := by
  have h1 : WellFormed 16 (List.replicate 2308 0) ([1, 2, 0] ++ List.replicate 64 0) := by
    refine ⟨rfl, by decide, ?_⟩
    rw [List.length_replicate, lenW_values.2.2.1]
    decide
  refine ⟨h1, by decide, fun ds => C85_verify_overflow_refuted _ _ 16 (by omega) h1 (by decide) 500 _ _ ds ?_⟩
  rw [List.length_replicate]
  omega

/-- A basic wallet of height 20 exists, and cannot sign on 8 MiB. -/
theorem demo_stack_basic (S : Sha256) (seed : Bytes) (hs : seed.length = 48) (m : Bytes) (ds : List Nat) :
    ∃ o, XmssBasic.new S seed 20 1 0 16 = ok o ∧ (basicSignFrame 500 .shake_128 o.params m.length ds).fits (8 * 2 ^ 20) = false := by
  have hg : GoodHeight 20 := by unfold GoodHeight; decide
  obtain ⟨o, h⟩ := (C39_basic_succeeds S seed 20 1 0 16 (by omega)).mpr ⟨hs, hg, by omega⟩
  exact ⟨o, h, (C85_basic_tall_refuted S seed 20 .shake_128 0 16 (by omega) hs hg (by decide) o o h [] [] rfl m ds 500).1 (by decide)⟩

example : ∃ o, XmssBasic.new toySha zeroSeed 20 1 0 16 = ok o ∧
    (basicSignFrame 500 .shake_128 o.params [1, 2, 3].length []).fits (8 * 2 ^ 20) = false :=
  demo_stack_basic toySha zeroSeed rfl [1, 2, 3] []

end Props
end Qrl
