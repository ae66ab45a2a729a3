import Verif.Proof.RustBdsK
import Verif.Props.RustSlices
/-!
# C93: the traversal parameter `k` of the Rust crate's fast functions
-/

namespace Qrl.Props

open Qrl.Spec

/-- C93. `XMSSParams::new` is `Ok` exactly when `2 ≤ k < h` and `h`, `k` are both even or both odd; otherwise it is an error (the C function
leaves the struct unset). -/
theorem C93_params (κ h w : Nat) :
    (2 ≤ κ → κ < h → h % 2 = κ % 2 → Rs.RK.xmssParams κ h w = .ok ⟨Rs.wotsParams w, h⟩) ∧
    (¬ (2 ≤ κ ∧ κ < h ∧ h % 2 = κ % 2) → Rs.RK.xmssParams κ h w = .err .invalidArgument) := by
  constructor
  · intro a b c
    rw [Rs.RK.xmssParams, if_neg (by omega)]
  · intro hc
    rw [Rs.RK.xmssParams, if_pos (by omega)]

example : Rs.RK.xmssParams 4 6 16 = .ok ⟨Rs.wotsParams 16, 6⟩ ∧ Rs.RK.xmssParams 3 6 16 = .err .invalidArgument ∧
    Rs.RK.xmssParams 6 6 16 = .err .invalidArgument ∧ Rs.RK.xmssParams 3 5 16 = .ok ⟨Rs.wotsParams 16, 5⟩ :=
  ⟨(C93_params 4 6 16).1 (by omega) (by omega) (by omega), (C93_params 3 6 16).2 (by omega), (C93_params 6 6 16).2 (by omega),
    (C93_params 3 5 16).1 (by omega) (by omega) (by omega)⟩

theorem rk_params {κ h w : Nat} {p : XmssParams} (hp : Rs.RK.xmssParams κ h w = .ok p) :
    2 ≤ κ ∧ κ < h ∧ h % 2 = κ % 2 ∧ p = ⟨Rs.wotsParams w, h⟩ := by
  by_cases hc : 2 ≤ κ ∧ κ < h ∧ h % 2 = κ % 2
  · rw [(C93_params κ h w).1 hc.1 hc.2.1 hc.2.2] at hp
    exact ⟨hc.1, hc.2.1, hc.2.2, (Rs.Res.ok.inj hp).symm⟩
  · rw [(C93_params κ h w).2 hc] at hp
    cases hp

/-- C93. `xmss_fast_gen_keypair` with an odd `k` returns an error and touches nothing. -/
theorem C93_odd (b : Rs.Build) (S : Sha256) (hf : HashFn) {κ h w : Nat} {p : XmssParams} (hp : Rs.RK.xmssParams κ h w = .ok p)
    (hodd : κ % 2 = 1) (pk sk seed : Bytes) (st : BdsState) :
    Rs.RK.xmssFastGenKeypairRaw κ b S hf p pk sk st seed = .err .invalidArgument := by
  obtain ⟨a, b', c, rfl⟩ := rk_params hp
  rw [Rs.RK.xmssFastGenKeypairRaw, if_pos (by rw [Nat.and_one_is_mod]; dsimp only; omega)]

example (pk sk seed : Bytes) (st : BdsState) :
    Rs.RK.xmssFastGenKeypairRaw 3 .debug toySha .sha2_256 ⟨Rs.wotsParams 16, 5⟩ pk sk st seed = .err .invalidArgument :=
  C93_odd _ _ _ ((C93_params 3 5 16).1 (by omega) (by omega) (by omega)) (by decide) ..

/-- C93. `xmss_fast_gen_keypair` with any even `k ≤ 26` (without overflow checks: any even `k`) and buffers of the sizes for this `k`: it
panics exactly if a slice is too short, and otherwise makes the key that `xmss_gen_keypair` makes, which knows no `k`. -/
theorem C93_gen_keypair (b : Rs.Build) (S : Sha256) (hf : HashFn) {κ h w : Nat} (hw : RangeW w) {p : XmssParams}
    (hp : Rs.RK.xmssParams κ h w = .ok p) (heven : κ % 2 = 0) (hb : b = .release ∨ κ ≤ 26) (h30 : h ≤ 30) (pk sk seed : Bytes) :
    (pk.length < 64 ∨ sk.length < 132 ∨ seed.length < 48 →
      Rs.RK.xmssFastGenKeypairRaw κ b S hf p pk sk (Rs.RK.bdsInit κ h) seed = .panic) ∧
    (64 ≤ pk.length → 132 ≤ sk.length → 48 ≤ seed.length → ∃ pk' sk' st,
      Rs.RK.xmssFastGenKeypairRaw κ b S hf p pk sk (Rs.RK.bdsInit κ h) seed = .ok (pk', sk', st) ∧
      Rs.xmssGenKeypairRaw b S hf p pk sk seed = .ok (0, pk', sk')) := by
  obtain ⟨k1, k2, k3, rfl⟩ := rk_params hp
  obtain ⟨st, -, e⟩ := Rs.RK.fastGenKeypairRaw_eq S b hf hw ⟨k1, heven, k2⟩ hb (by omega) h30 (by omega) pk sk seed
  refine ⟨fun hs => by rw [e, if_pos hs], fun a b c => ?_⟩
  rw [if_neg (by omega)] at e
  refine ⟨_, _, st, e, ?_⟩
  rw [C91_gen_keypair _ S hf hw (by omega), if_neg (by omega)]

theorem rk_demo_gen (b : Rs.Build) (S : Sha256) (κ : Nat) (hκ : κ = 2 ∨ κ = 4) (seed : Bytes) (hs : seed.length = 48) :
    ∃ pk' sk' st, Rs.RK.xmssParams κ 6 16 = .ok ⟨Rs.wotsParams 16, 6⟩ ∧
      Rs.RK.xmssFastGenKeypairRaw κ b S .shake_128 ⟨Rs.wotsParams 16, 6⟩ (List.replicate 64 1) (List.replicate 140 1) (Rs.RK.bdsInit κ 6)
        seed = .ok (pk', sk', st) := by
  have e := (C93_params κ 6 16).1 (by omega) (by omega) (by omega)
  obtain ⟨pk', sk', st, h, -⟩ := (C93_gen_keypair b S .shake_128 (by decide) e (by omega) (Or.inr (by omega)) (by omega)
    (List.replicate 64 1) (List.replicate 140 1) seed).2 (by simp) (by simp) (by omega)
  exact ⟨pk', sk', st, e, h⟩

example (seed : Bytes) (hs : seed.length = 48) : (Rs.RK.bdsInit 4 6).treehash.length = 2 ∧ (Rs.RK.bdsInit 4 6).retain.length = 11 ∧
    ∃ pk' sk' st, Rs.RK.xmssFastGenKeypairRaw 4 .debug toySha .shake_128 ⟨Rs.wotsParams 16, 6⟩ (List.replicate 64 1) (List.replicate 140 1)
      (Rs.RK.bdsInit 4 6) seed = .ok (pk', sk', st) := by
  obtain ⟨pk', sk', st, -, h⟩ := rk_demo_gen .debug toySha 4 (Or.inr rfl) seed hs
  exact ⟨rfl, rfl, pk', sk', st, h⟩

/-- C93. Every history of `xmss_fast_update` and `xmss_fast_sign_msg` with any even `k ≤ 26`: replies, panics and the key slice are those of
a counter, in which `k` does not occur. -/
theorem C93_history (b : Rs.Build) (S : Sha256) (hf : HashFn) {κ h w : Nat} (hw : RangeW w) {p : XmssParams}
    (hp : Rs.RK.xmssParams κ h w = .ok p) (heven : κ % 2 = 0) (h26 : κ ≤ 26) (h30 : h ≤ 30) (pk sk seed : Bytes) (pk' sk' : Bytes)
    (st : BdsState) (hgen : Rs.RK.xmssFastGenKeypairRaw κ b S hf p pk sk (Rs.RK.bdsInit κ h) seed = .ok (pk', sk', st)) (cs : List CCall)
    (hcs : 2 ^ h + cs.length < 2 ^ 32) :
    let x := shake256 96 (seed.take 48)
    (Rs.RK.sliceRun κ b S hf p (sk', st) cs).map (fun y => (y.1, y.2.1)) =
      (sliceCounter (rustSize w h) (2 ^ h) (sliceWrittenAt b S hf w h (x.take 32) ((x.drop 32).take 32) (x.drop 64)) 0 cs).map
        fun y => (y.1, be 4 y.2 ++ sk'.drop 4) := by
  intro x
  obtain ⟨q1, q2, q3, rfl⟩ := rk_params hp
  have hk : BK.KOk κ h := ⟨⟨q1, heven, q2⟩, h26⟩
  have h4 : 4 ≤ h := by omega
  have hev : h % 2 = 0 := by omega
  have hw1 := Rs.rustLen_pos hw
  obtain ⟨st', hinv, e⟩ := Rs.RK.fastGenKeypairRaw_eq S b hf hw hk.1 (Or.inr h26) h4 h30 hev pk sk seed
  rw [hgen] at e
  split at e
  · cases e
  next hc =>
  have e' := Rs.Res.ok.inj e
  obtain ⟨-, e3, e4⟩ := (by simpa using e' : pk' = _ ∧ sk' = _ ∧ st = _)
  subst e4
  generalize hK : keyP S hf w (rustLen w) h hw1 (seed.take 48) = K
  have hsk : sk' = K.sk 0 ++ sk.drop 132 := by
    rw [e3, ← hK, ← keyP_sk0]
    simp only [List.append_assoc]
    rfl
  have k1 : K.skSeed = x.take 32 := by rw [← hK]; rfl
  have k2 : K.skPrf = (x.drop 32).take 32 := by rw [← hK]; rfl
  have k3 : K.ps = x.drop 64 := by rw [← hK]; rfl
  have k4 : K.root = node (hf.prim S) w (rustLen w) K.skSeed K.ps h 0 := by rw [← hK]; rfl
  have hd : sk'.drop 132 = sk.drop 132 := by rw [hsk, List.drop_left' (K.length_sk 0)]
  have hinv' : BK.BdsInv κ (node (hf.prim S) w (rustLen w) K.skSeed K.ps) h 0 (fun _ => none) st := by
    rw [k1, k3]; exact hinv
  have hrun := Rs.RK.sliceRun_eq S b hf hw hk h4 h30 hev K hinv' (sk.drop 132) cs 0 (by have := Nat.two_pow_pos h; omega)
  rw [show BK.stAt κ S hf ⟨Rs.wotsParams w, h⟩ K.skSeed K.ps st (min 0 (2 ^ h - 1)) = st by rw [Nat.zero_min]; rfl, ← hsk] at hrun
  rw [hrun, Option.map_map]
  have hσ : (fun j m => sliceSignature b S hf w h K.skSeed K.skPrf K.ps K.root j (min j (2 ^ h - 1)) m) =
      sliceWrittenAt b S hf w h (x.take 32) ((x.drop 32).take 32) (x.drop 64) := by
    funext j m
    rw [sliceWrittenAt, ← k1, ← k2, ← k3, ← k4]
    by_cases hj : j < 2 ^ h
    · rw [if_pos hj, Nat.min_eq_left (by omega), k4, sliceSignature_honest]
    · rw [if_neg hj, Nat.min_eq_right (by omega)]
  rw [hσ]
  congr 1
  funext y
  simp only [Function.comp]
  rw [← reindexed (K := K) (i := 0) (by rw [hd]; exact hsk), hd]

/-- A history with `k = 4`: a refused update, a skip to the last leaf and two signatures, the second of them beyond the tree. -/
example (seed buf : Bytes) (hs : seed.length = 48) (hb : buf.length = 2372) : ∃ sk' st r1 r2 key,
    (Rs.RK.sliceRun 4 .debug toySha .shake_128 ⟨Rs.wotsParams 16, 6⟩ (sk', st)
      [.update 64, .update 63, .sign buf [1] 1, .update 3, .sign buf [2] 1]).map (fun y => (y.1, y.2.1)) =
      some ([.threw .invalidArgument, .code 0, r1, .threw .invalidArgument, r2], key) := by
  obtain ⟨pk', sk', st, e, h⟩ := rk_demo_gen .debug toySha 4 (Or.inr rfl) seed hs
  have := C93_history .debug toySha .shake_128 (by decide) e (by omega) (by omega) (by omega) _ _ seed pk' sk' st h
    [.update 64, .update 63, .sign buf [1] 1, .update 3, .sign buf [2] 1] (by simp)
  have hz : rustSize 16 6 = 2372 := by rw [rustSize, Rs.rustLen_usable usable16, lenW_values.2.2.1]
  obtain ⟨s1, e1⟩ := written_some .debug toySha .shake_128 usable16 6 ((shake256 96 (seed.take 48)).take 32)
    (((shake256 96 (seed.take 48)).drop 32).take 32) ((shake256 96 (seed.take 48)).drop 64) 63 (m := [1])
    (by simp [rustShort, rustRoom])
  obtain ⟨s2, e2⟩ := written_some .debug toySha .shake_128 usable16 6 ((shake256 96 (seed.take 48)).take 32)
    (((shake256 96 (seed.take 48)).drop 32).take 32) ((shake256 96 (seed.take 48)).drop 64) 64 (m := [2])
    (by simp [rustShort, rustRoom])
  simp only [sliceCounter, hz, hb] at this
  rw [if_pos (by decide), if_neg (by decide), if_neg (by decide), show ([1] : Bytes).take 1 = [1] from rfl,
    show ([2] : Bytes).take 1 = [2] from rfl, show (63 : UInt32).toNat = 63 from rfl, e1, if_pos (by decide), if_neg (by decide), e2] at this
  exact ⟨sk', st, _, _, _, this⟩

/-- C93. `k` cannot be seen from outside: two programs that make a key from the same seed in the same slices with two even values of `k` up
to 26 get the same public key and secret key, and whatever they then do, the same replies, panics, signatures and key. -/
theorem C93_same (b : Rs.Build) (S : Sha256) (hf : HashFn) {κ κ' h w : Nat} (hw : RangeW w) {p p' : XmssParams}
    (hp : Rs.RK.xmssParams κ h w = .ok p) (hp' : Rs.RK.xmssParams κ' h w = .ok p') (heven : κ % 2 = 0) (h26 : κ ≤ 26) (h26' : κ' ≤ 26)
    (h30 : h ≤ 30) (pk sk seed : Bytes) (pk1 sk1 pk2 sk2 : Bytes) (st st' : BdsState)
    (hgen : Rs.RK.xmssFastGenKeypairRaw κ b S hf p pk sk (Rs.RK.bdsInit κ h) seed = .ok (pk1, sk1, st))
    (hgen' : Rs.RK.xmssFastGenKeypairRaw κ' b S hf p' pk sk (Rs.RK.bdsInit κ' h) seed = .ok (pk2, sk2, st')) :
    pk1 = pk2 ∧ sk1 = sk2 ∧ ∀ cs : List CCall, 2 ^ h + cs.length < 2 ^ 32 →
      (Rs.RK.sliceRun κ b S hf p (sk1, st) cs).map (fun y => (y.1, y.2.1)) =
        (Rs.RK.sliceRun κ' b S hf p' (sk2, st') cs).map (fun y => (y.1, y.2.1)) := by
  obtain ⟨a1, a2, a3, rfl⟩ := rk_params hp
  obtain ⟨c1, c2, c3, rfl⟩ := rk_params hp'
  have heven' : κ' % 2 = 0 := by omega
  have G := C93_gen_keypair b S hf hw hp heven (Or.inr h26) h30 pk sk seed
  have G' := C93_gen_keypair b S hf hw hp' heven' (Or.inr h26') h30 pk sk seed
  have hlong : 64 ≤ pk.length ∧ 132 ≤ sk.length ∧ 48 ≤ seed.length := by
    apply Classical.byContradiction
    intro hc
    rw [G.1 (by omega)] at hgen
    cases hgen
  obtain ⟨x1, x2, s, g1, g2⟩ := G.2 hlong.1 hlong.2.1 hlong.2.2
  obtain ⟨y1, y2, s', g1', g2'⟩ := G'.2 hlong.1 hlong.2.1 hlong.2.2
  have E1 := Rs.Res.ok.inj (hgen.symm.trans g1)
  have E2 := Rs.Res.ok.inj (hgen'.symm.trans g1')
  have E3 := Rs.Res.ok.inj (g2.symm.trans g2')
  simp only [Prod.mk.injEq] at E1 E2 E3
  obtain ⟨x1', x2', -⟩ := E1
  obtain ⟨y1', y2', -⟩ := E2
  obtain ⟨-, z2, z3⟩ := E3
  have hsk : sk1 = sk2 := by rw [x2', y2', z3]
  refine ⟨by rw [x1', y1', z2], hsk, fun cs hcs => ?_⟩
  have H1 := C93_history b S hf hw hp heven h26 h30 pk sk seed pk1 sk1 st hgen cs hcs
  have H2 := C93_history b S hf hw hp' heven' h26' h30 pk sk seed pk2 sk2 st' hgen' cs hcs
  rw [← hsk] at H2 ⊢
  exact H1.trans H2.symm

example (seed : Bytes) (hs : seed.length = 48) (cs : List CCall) (hcs : cs.length ≤ 1000) : ∃ sk' st st',
    (Rs.RK.sliceRun 4 .debug toySha .shake_128 ⟨Rs.wotsParams 16, 6⟩ (sk', st) cs).map (fun y => (y.1, y.2.1)) =
      (Rs.RK.sliceRun 2 .debug toySha .shake_128 ⟨Rs.wotsParams 16, 6⟩ (sk', st') cs).map (fun y => (y.1, y.2.1)) := by
  obtain ⟨pk', sk', st, e, h⟩ := rk_demo_gen .debug toySha 4 (Or.inr rfl) seed hs
  obtain ⟨pk2, sk2, st', e', h'⟩ := rk_demo_gen .debug toySha 2 (Or.inl rfl) seed hs
  obtain ⟨-, rfl, H⟩ := C93_same .debug toySha .shake_128 (by decide) e e' (by omega) (by omega) (by omega) (by omega) _ _ seed pk' sk' pk2 sk2
    st st' h h'
  exact ⟨sk', st, st', H cs (by omega)⟩

/-- C93. `k = 2` is what `XMSSFast` uses: the parameters, the key pair and every history are then those of the functions that the theorems
about `XMSSFast` and C91 are about. -/
theorem C93_two (b : Rs.Build) (S : Sha256) (hf : HashFn) (h w : Nat) :
    Rs.RK.bdsInit 2 h = Rs.bdsInit h ∧
    Rs.RK.xmssParams 2 h w = Rs.xmssParams h w ∧
    (RangeW w → h ≤ 30 → ∀ p, Rs.xmssParams h w = .ok p → ∀ pk sk seed : Bytes,
      (Rs.RK.xmssFastGenKeypairRaw 2 b S hf p pk sk (Rs.RK.bdsInit 2 h) seed = .panic ∧
        Rs.xmssFastGenKeypairRaw b S hf p pk sk (Rs.bdsInit h) seed = .panic) ∨
      ∃ pk' sk' st st', Rs.RK.xmssFastGenKeypairRaw 2 b S hf p pk sk (Rs.RK.bdsInit 2 h) seed = .ok (pk', sk', st) ∧
        Rs.xmssFastGenKeypairRaw b S hf p pk sk (Rs.bdsInit h) seed = .ok (pk', sk', st') ∧
        ∀ cs : List CCall, 2 ^ h + cs.length < 2 ^ 32 →
          (Rs.RK.sliceRun 2 b S hf p (sk', st) cs).map (fun y => (y.1, y.2.1)) =
            (Rs.sliceRun b S hf p (sk', st') cs).map (fun y => (y.1, y.2.1))) := by
  have hset : Rs.RK.xmssParams 2 h w = Rs.xmssParams h w := by
    rw [Rs.RK.xmssParams, Rs.xmssParams]
    by_cases hc : 2 ≥ h ∨ (h - 2) % 2 ≠ 0
    · rw [if_pos (by omega), if_pos hc]
    · rw [if_neg (by omega), if_neg hc]
  refine ⟨rfl, hset, fun hw h30 p hp pk sk seed => ?_⟩
  have hp2 := hset.trans hp
  obtain ⟨a1, a2, a3, rfl⟩ := rk_params hp2
  have G := C93_gen_keypair b S hf hw hp2 rfl (Or.inr (by omega)) h30 pk sk seed
  have G' := C91_fast_gen_keypair b S hf hw (show 4 ≤ h by omega) h30 (by omega) pk sk seed
  by_cases hlong : 64 ≤ pk.length ∧ 132 ≤ sk.length ∧ 48 ≤ seed.length
  · right
    obtain ⟨x1, x2, s, g1, g2⟩ := G.2 hlong.1 hlong.2.1 hlong.2.2
    obtain ⟨y1, y2, s', g1', g2'⟩ := G'.2 hlong.1 hlong.2.1 hlong.2.2
    have E := Rs.Res.ok.inj (g2.symm.trans g2')
    simp only [Prod.mk.injEq] at E
    obtain ⟨-, z2, z3⟩ := E
    subst z2 z3
    exact ⟨x1, x2, s, s', g1, g1', fun cs hcs =>
      (C93_history b S hf hw hp2 rfl (by omega) h30 pk sk seed x1 x2 s g1 cs hcs).trans
        (C91_fast_history b S hf hw (by omega) h30 (by omega) pk sk seed x1 x2 s' g1' cs hcs).symm⟩
  · left
    exact ⟨G.1 (by omega), G'.1 (by omega)⟩

example (seed : Bytes) (hs : seed.length = 48) (cs : List CCall) (hcs : cs.length ≤ 1000) : ∃ sk' st st',
    (Rs.RK.sliceRun 2 .debug toySha .shake_128 ⟨Rs.wotsParams 16, 6⟩ (sk', st) cs).map (fun y => (y.1, y.2.1)) =
      (Rs.sliceRun .debug toySha .shake_128 ⟨Rs.wotsParams 16, 6⟩ (sk', st') cs).map (fun y => (y.1, y.2.1)) := by
  obtain ⟨pk', sk', st, e, h⟩ := rk_demo_gen .debug toySha 2 (Or.inl rfl) seed hs
  obtain ⟨-, e2, H⟩ := C93_two .debug toySha .shake_128 6 16
  rw [e2] at e
  rcases H (by decide) (by omega) _ e (List.replicate 64 1) (List.replicate 140 1) seed with hu | ⟨pk2, sk2, st2, st3, a, b, c⟩
  · rw [hu.1] at h; cases h
  · exact ⟨sk2, st2, st3, c cs (by omega)⟩

end Qrl.Props
