import Verif.Proof.BdsKApi
import Verif.Props.CLow
/-!
# C92: the fast functions of src/xmss-alt with any traversal parameter `k`
-/

namespace Qrl.Props

open Outcome Qrl.Spec
open Qrl.BK (KOk)

theorem bk_params {κ h w : Nat} {p : XmssParams} (hp : BK.xmssSetParams κ h w = ok p) :
    (2 ≤ κ ∧ κ < h ∧ h % 2 = κ % 2) ∧ p.h = h ∧ wotsSetParams w = ok p.wots := by
  rw [BK.xmssSetParams] at hp
  split at hp
  · cases hp
  · obtain ⟨wp, h1, h2⟩ := bind_eq_ok.mp hp
    cases h2
    exact ⟨by omega, rfl, h1⟩

/-- C92. `xmss_set_params` sets the caller's struct exactly when `2 ≤ k < h` and `h`, `k` are both even or both odd, and the struct then
does not depend on `k` otherwise. -/
theorem C92_set_params {w : Nat} (hw : w = 2 ∨ w = 4 ∨ w = 16 ∨ w = 256) (h κ : Nat) :
    ∃ wp, wotsSetParams w = ok wp ∧
      (2 ≤ κ → κ < h → h % 2 = κ % 2 → BK.xmssSetParams κ h w = ok ⟨wp, h⟩) ∧
      (¬ (2 ≤ κ ∧ κ < h ∧ h % 2 = κ % 2) → BK.xmssSetParams κ h w = ub) := by
  obtain ⟨p, k, q, e, -⟩ := base_ok hw
  refine ⟨p, e, fun a b c => ?_, fun hc => ?_⟩
  · rw [BK.xmssSetParams, if_neg (by omega), e]; rfl
  · rw [BK.xmssSetParams, if_pos]
    omega

theorem bk_demo_params : ∃ p, BK.xmssSetParams 4 6 16 = ok p ∧ BK.xmssSetParams 2 6 16 = ok p := by
  obtain ⟨wp, -, a, -⟩ := C92_set_params (w := 16) (by omega) 6 4
  obtain ⟨wp', e', b, -⟩ := C92_set_params (w := 16) (by omega) 6 2
  obtain ⟨wp, e, a, -⟩ := C92_set_params (w := 16) (by omega) 6 4
  rw [e] at e'
  cases e'
  exact ⟨_, a (by omega) (by omega) (by omega), b (by omega) (by omega) (by omega)⟩

example : (∃ p, BK.xmssSetParams 4 6 16 = ok p) ∧ BK.xmssSetParams 3 6 16 = ub ∧ BK.xmssSetParams 6 6 16 = ub ∧
    (∃ p, BK.xmssSetParams 3 5 16 = ok p) := by
  obtain ⟨wp, -, a, -⟩ := C92_set_params (w := 16) (by omega) 6 4
  obtain ⟨-, -, -, b⟩ := C92_set_params (w := 16) (by omega) 6 3
  obtain ⟨-, -, -, c⟩ := C92_set_params (w := 16) (by omega) 6 6
  obtain ⟨wp', -, d, -⟩ := C92_set_params (w := 16) (by omega) 5 3
  exact ⟨⟨_, a (by omega) (by omega) (by omega)⟩, b (by omega), c (by omega), _, d (by omega) (by omega) (by omega)⟩

/-- C92. `xmssfast_Genkeypair` with an odd height, which goes with an odd `k`, returns -1 and touches nothing. -/
theorem C92_genkeypair_odd (S : Sha256) (hf : HashFn) {κ h w : Nat} {p : XmssParams} (hp : BK.xmssSetParams κ h w = ok p)
    (hodd : κ % 2 = 1) (pk sk seed : Bytes) (st : BdsState) :
    BK.xmssfastGenkeypairBuf κ S hf p pk sk st seed = ok (-1, pk, sk, st) := by
  obtain ⟨hk, e1, -⟩ := bk_params hp
  rw [BK.xmssfastGenkeypairBuf, if_pos (by rw [Nat.and_one_is_mod]; omega)]

example (pk sk seed : Bytes) (st : BdsState) : ∃ p, BK.xmssSetParams 3 5 16 = ok p ∧
    BK.xmssfastGenkeypairBuf 3 toySha .sha2_256 p pk sk st seed = ok (-1, pk, sk, st) := by
  obtain ⟨wp, -, a, -⟩ := C92_set_params (w := 16) (by omega) 5 3
  have e := a (by omega) (by omega) (by omega)
  exact ⟨_, e, C92_genkeypair_odd _ _ e (by decide) _ _ _ _⟩

/-- C92. `xmssfast_Genkeypair` with any even `k` and arrays of the sizes for this `k` with nothing in them: every access stays in the
arrays, and the key is the one that `xmss_Genkeypair` makes, which knows no `k`. -/
theorem C92_genkeypair (S : Sha256) (hf : HashFn) {κ h w : Nat} (hw : w = 2 ∨ w = 4 ∨ w = 16 ∨ w = 256) {p : XmssParams}
    (hp : BK.xmssSetParams κ h w = ok p) (heven : κ % 2 = 0) (h30 : h ≤ 30) (pk sk seed : Bytes) :
    (pk.length < 64 ∨ sk.length < 132 ∨ seed.length < 48 → BK.xmssfastGenkeypairBuf κ S hf p pk sk (BK.bdsInit κ h) seed = ub) ∧
    (64 ≤ pk.length → 132 ≤ sk.length → 48 ≤ seed.length → ∃ pk' sk' st,
      BK.xmssfastGenkeypairBuf κ S hf p pk sk (BK.bdsInit κ h) seed = ok (0, pk', sk', st) ∧
      xmssGenkeypairBuf S hf p pk sk seed = ok (0, pk', sk')) := by
  obtain ⟨hk, e1, e2⟩ := bk_params hp
  obtain ⟨k, q, hsp, h1, h2⟩ := setParams_ok hw e2
  have hk' : BK.KSet κ p.h := ⟨hk.1, by omega, by omega⟩
  obtain ⟨st, -, e⟩ := BK.xmssfastGenkeypairBuf_eq S hf p h1 hk' (by omega) (by omega) (by omega) pk sk seed
  rw [e1] at e
  refine ⟨fun hs => by rw [e, if_pos hs], fun a b c => ?_⟩
  rw [if_neg (by omega)] at e
  refine ⟨_, _, st, e, ?_⟩
  rw [xmssGenkeypairBuf_eq S hf p h1, if_neg (by omega), e1]

theorem bk_demo_gen (S : Sha256) (seed : Bytes) (hs : seed.length = 48) : ∃ p pk' sk' st st',
    BK.xmssSetParams 4 6 16 = ok p ∧ BK.xmssSetParams 2 6 16 = ok p ∧
    BK.xmssfastGenkeypairBuf 4 S .shake_128 p (List.replicate 64 1) (List.replicate 140 1) (BK.bdsInit 4 6) seed = ok (0, pk', sk', st) ∧
    BK.xmssfastGenkeypairBuf 2 S .shake_128 p (List.replicate 64 1) (List.replicate 140 1) (BK.bdsInit 2 6) seed = ok (0, pk', sk', st') := by
  obtain ⟨p, e, e'⟩ := bk_demo_params
  obtain ⟨pk', sk', st, a, b⟩ := (C92_genkeypair S .shake_128 (by omega) e (by omega) (by omega) (List.replicate 64 1)
    (List.replicate 140 1) seed).2 (by simp) (by simp) (by omega)
  obtain ⟨pk2, sk2, st', a', b'⟩ := (C92_genkeypair S .shake_128 (by omega) e' (by omega) (by omega) (List.replicate 64 1)
    (List.replicate 140 1) seed).2 (by simp) (by simp) (by omega)
  rw [b] at b'
  have h := Outcome.ok.inj b'
  obtain ⟨-, h1, h2⟩ := (by simpa using h : True ∧ pk' = pk2 ∧ sk' = sk2)
  subst h1 h2
  exact ⟨p, pk', sk', st, st', e, e', a, a'⟩

/-- With `k = 4` the state has two tree-hash instances and eleven retained nodes, with `k = 2` four and one; the key is the same. -/
example (seed : Bytes) (hs : seed.length = 48) : (BK.bdsInit 4 6).treehash.length = 2 ∧ (BK.bdsInit 4 6).retain.length = 11 ∧
    (BK.bdsInit 2 6).treehash.length = 4 ∧ (BK.bdsInit 2 6).retain.length = 1 ∧ ∃ p pk' sk' st st',
    BK.xmssfastGenkeypairBuf 4 toySha .shake_128 p (List.replicate 64 1) (List.replicate 140 1) (BK.bdsInit 4 6) seed = ok (0, pk', sk', st) ∧
    BK.xmssfastGenkeypairBuf 2 toySha .shake_128 p (List.replicate 64 1) (List.replicate 140 1) (BK.bdsInit 2 6) seed =
      ok (0, pk', sk', st') := by
  obtain ⟨p, pk', sk', st, st', -, -, a, b⟩ := bk_demo_gen toySha seed hs
  exact ⟨rfl, rfl, rfl, rfl, p, pk', sk', st, st', a, b⟩

/-- C92. Every history of `xmssfast_update` and `xmssfast_Signmsg` with any even `k ≤ 26`: the replies, the signatures and the key buffer are
those of a counter, in which `k` does not occur. -/
theorem C92_history (S : Sha256) (hf : HashFn) {κ h w : Nat} (hw : w = 2 ∨ w = 4 ∨ w = 16 ∨ w = 256) {p : XmssParams}
    (hp : BK.xmssSetParams κ h w = ok p) (heven : κ % 2 = 0) (h26 : κ ≤ 26) (h30 : h ≤ 30) (pk sk seed : Bytes) (c : Int) (pk' sk' : Bytes)
    (st : BdsState) (hgen : BK.xmssfastGenkeypairBuf κ S hf p pk sk (BK.bdsInit κ h) seed = ok (c, pk', sk', st)) (cs : List CCall)
    (hcs : 2 ^ h + cs.length ≤ 2 ^ 32) :
    let x := shake256 96 (seed.take 48)
    (BK.cRun κ S hf p (sk', st) cs).map (fun y => (y.1, y.2.1)) =
      (uncheckedRun (signatureSize w h) (2 ^ h) (writtenAt (hf.prim S) w h (x.take 32) ((x.drop 32).take 32) (x.drop 64)) 0 cs).map
        fun y => (y.1, be 4 y.2 ++ sk'.drop 4) := by
  intro x
  obtain ⟨hk, e1, e2⟩ := bk_params hp
  obtain ⟨k, q, hsp, h1, h2⟩ := setParams_ok hw e2
  have hk' : KOk κ p.h := ⟨⟨hk.1, by omega, by omega⟩, h26⟩
  have hw1 : 1 ≤ lenW w := lenW_pos hw
  obtain ⟨st', hinv, e⟩ := BK.xmssfastGenkeypairBuf_eq S hf p h1 hk'.1 (by omega) (by omega) (by omega) pk sk seed
  rw [e1, hgen] at e
  split at e
  · cases e
  next hc =>
  have e' := Outcome.ok.inj e
  obtain ⟨-, -, e3, e4⟩ := (by simpa using e' : c = 0 ∧ pk' = _ ∧ sk' = _ ∧ st = _)
  subst e4
  generalize hK : keyOf S hf w h hw1 (seed.take 48) = K
  have hsk : sk' = K.sk 0 ++ sk.drop 132 := by
    rw [e3, ← hK, ← keyOf_sk0, hsp.len, hsp.pw]
    simp only [List.append_assoc]
    rfl
  have k1 : K.skSeed = x.take 32 := by rw [← hK]; rfl
  have k2 : K.skPrf = (x.drop 32).take 32 := by rw [← hK]; rfl
  have k3 : K.ps = x.drop 64 := by rw [← hK]; rfl
  have k4 : K.root = node (hf.prim S) w (lenW w) K.skSeed K.ps h 0 := by rw [← hK]; rfl
  have hd : sk'.drop 132 = sk.drop 132 := by rw [hsk, List.drop_left' (K.length_sk 0)]
  have hinv' : BK.BdsInv κ (node (hf.prim S) p.wots.w p.wots.len K.skSeed K.ps) p.h 0 (fun _ => none) st := by
    rw [k1, k3]; exact hinv
  have hrun := BK.cRun_eq S hf hsp h1 hk' (by omega) (by omega) (by omega) K hinv' (sk.drop 132) cs 0 (by rw [e1]; have := Nat.two_pow_pos h; omega)
  rw [show BK.stAt κ S hf p K.skSeed K.ps st (min 0 (2 ^ p.h - 1)) = st by rw [Nat.zero_min]; rfl, ← hsk, e1] at hrun
  rw [hrun, Option.map_map]
  have hσ : (fun j m => bufferSignature (hf.prim S) w h K.skSeed K.skPrf K.ps K.root j (min j (2 ^ h - 1)) m) =
      writtenAt (hf.prim S) w h (x.take 32) ((x.drop 32).take 32) (x.drop 64) := by
    funext j m
    rw [writtenAt, ← k1, ← k2, ← k3, ← k4]
    by_cases hj : j < 2 ^ h
    · rw [if_pos hj, Nat.min_eq_left (by omega), bufferSignature, signature, k4]
    · rw [if_neg hj, Nat.min_eq_right (by omega)]
  rw [hσ]
  congr 1
  funext y
  simp only [Function.comp]
  rw [← reindexed (K := K) (i := 0) (by rw [hd]; exact hsk), hd]

/-- A history with `k = 4`: a refused update, a skip to the last leaf and two signatures, the second of them beyond the tree. -/
example (seed buf : Bytes) (hs : seed.length = 48) (hb : buf.length = 2372) : ∃ p sk' st r1 r2 key, BK.xmssSetParams 4 6 16 = ok p ∧
    (BK.cRun 4 toySha .shake_128 p (sk', st) [.update 64, .update 63, .sign buf [1] 1, .update 3, .sign buf [2] 1]).map (fun y => (y.1, y.2.1)) =
      some ([.threw .invalidArgument, .code 0, r1, .threw .invalidArgument, r2], key) := by
  obtain ⟨p, pk', sk', st, -, e, -, h, -⟩ := bk_demo_gen toySha seed hs
  have := C92_history toySha .shake_128 (by omega) e (by omega) (by omega) (by omega) _ _ seed 0 pk' sk' st h
    [.update 64, .update 63, .sign buf [1] 1, .update 3, .sign buf [2] 1] (by simp)
  have hz : signatureSize 16 6 = 2372 := by rw [signatureSize, lenW_values.2.2.1]
  simp only [uncheckedRun, hz, hb] at this
  rw [if_pos (by decide), if_neg (by decide), if_neg (by decide), if_pos (by decide), if_neg (by decide)] at this
  exact ⟨p, sk', st, _, _, _, e, this⟩

/-- C92. `k` cannot be seen from outside: two programs that make a key from the same seed in the same buffers with two even values of
`k` up to 26 get the same return value, public key and secret key, and whatever they then do, the same replies, signatures and key. -/
theorem C92_same (S : Sha256) (hf : HashFn) {κ κ' h w : Nat} (hw : w = 2 ∨ w = 4 ∨ w = 16 ∨ w = 256) {p p' : XmssParams}
    (hp : BK.xmssSetParams κ h w = ok p) (hp' : BK.xmssSetParams κ' h w = ok p') (heven : κ % 2 = 0) (h26 : κ ≤ 26) (h26' : κ' ≤ 26) (h30 : h ≤ 30)
    (pk sk seed : Bytes) (c c' : Int) (pk1 sk1 pk2 sk2 : Bytes) (st st' : BdsState)
    (hgen : BK.xmssfastGenkeypairBuf κ S hf p pk sk (BK.bdsInit κ h) seed = ok (c, pk1, sk1, st))
    (hgen' : BK.xmssfastGenkeypairBuf κ' S hf p' pk sk (BK.bdsInit κ' h) seed = ok (c', pk2, sk2, st')) :
    c = c' ∧ pk1 = pk2 ∧ sk1 = sk2 ∧ ∀ cs : List CCall, 2 ^ h + cs.length ≤ 2 ^ 32 →
      (BK.cRun κ S hf p (sk1, st) cs).map (fun y => (y.1, y.2.1)) = (BK.cRun κ' S hf p' (sk2, st') cs).map (fun y => (y.1, y.2.1)) := by
  obtain ⟨hk, e1, e2⟩ := bk_params hp
  obtain ⟨hk', e1', e2'⟩ := bk_params hp'
  have heven' : κ' % 2 = 0 := by omega
  have hpp : p = p' := by
    cases p; cases p'
    simp only at e1 e1' e2 e2'
    rw [e2] at e2'
    cases e2'
    rw [e1, e1']
  subst hpp
  have hlong : 64 ≤ pk.length ∧ 132 ≤ sk.length ∧ 48 ≤ seed.length := by
    apply Classical.byContradiction
    intro hc
    rw [(C92_genkeypair S hf hw hp heven h30 pk sk seed).1 (by omega)] at hgen
    cases hgen
  obtain ⟨a1, a2, s, g1, g2⟩ := (C92_genkeypair S hf hw hp heven h30 pk sk seed).2 hlong.1 hlong.2.1 hlong.2.2
  obtain ⟨b1, b2, s', g1', g2'⟩ := (C92_genkeypair S hf hw hp' heven' h30 pk sk seed).2 hlong.1 hlong.2.1 hlong.2.2
  have E1 := Outcome.ok.inj (hgen.symm.trans g1)
  have E2 := Outcome.ok.inj (hgen'.symm.trans g1')
  have E3 := Outcome.ok.inj (g2.symm.trans g2')
  simp only [Prod.mk.injEq] at E1 E2 E3
  obtain ⟨x1, x2, x3, -⟩ := E1
  obtain ⟨y1, y2, y3, -⟩ := E2
  obtain ⟨-, z2, z3⟩ := E3
  have hsk : sk1 = sk2 := by rw [x3, y3, z3]
  refine ⟨by rw [x1, y1], by rw [x2, y2, z2], hsk, fun cs hcs => ?_⟩
  have H1 := C92_history S hf hw hp heven h26 h30 pk sk seed c pk1 sk1 st hgen cs hcs
  have H2 := C92_history S hf hw hp' heven' h26' h30 pk sk seed c' pk2 sk2 st' hgen' cs hcs
  rw [← hsk] at H2 ⊢
  exact H1.trans H2.symm

example (seed : Bytes) (hs : seed.length = 48) (cs : List CCall) (hcs : cs.length ≤ 1000) : ∃ p sk' st st',
    (BK.cRun 4 toySha .shake_128 p (sk', st) cs).map (fun y => (y.1, y.2.1)) =
      (BK.cRun 2 toySha .shake_128 p (sk', st') cs).map (fun y => (y.1, y.2.1)) := by
  obtain ⟨p, pk', sk', st, st', e, e', h, h'⟩ := bk_demo_gen toySha seed hs
  exact ⟨p, sk', st, st', (C92_same toySha .shake_128 (by omega) e e' (by omega) (by omega) (by omega) (by omega) _ _ seed 0 0 pk' sk' pk' sk' st st' h h').2.2.2
    cs (by omega)⟩

/-- C92. `k = 2` is what `XmssFast` uses: the parameters, the key pair and every history are then those of the functions that the
theorems about `XmssFast` and C89 are about. -/
theorem C92_two (S : Sha256) (hf : HashFn) (h w : Nat) :
    BK.bdsInit 2 h = bdsInit h ∧
    BK.xmssSetParams 2 h w = xmssSetParams h w ∧
    ((w = 2 ∨ w = 4 ∨ w = 16 ∨ w = 256) → h ≤ 30 → ∀ p, xmssSetParams h w = ok p → ∀ pk sk seed : Bytes,
      (BK.xmssfastGenkeypairBuf 2 S hf p pk sk (BK.bdsInit 2 h) seed = ub ∧ xmssfastGenkeypairBuf S hf p pk sk (bdsInit h) seed = ub) ∨
      ∃ pk' sk' st st', BK.xmssfastGenkeypairBuf 2 S hf p pk sk (BK.bdsInit 2 h) seed = ok (0, pk', sk', st) ∧
        xmssfastGenkeypairBuf S hf p pk sk (bdsInit h) seed = ok (0, pk', sk', st') ∧
        ∀ cs : List CCall, 2 ^ h + cs.length ≤ 2 ^ 32 →
          (BK.cRun 2 S hf p (sk', st) cs).map (fun y => (y.1, y.2.1)) = (cRun S hf p (sk', st') cs).map (fun y => (y.1, y.2.1))) := by
  have hset : BK.xmssSetParams 2 h w = xmssSetParams h w := by
    rw [BK.xmssSetParams, xmssSetParams]
    by_cases hc : h ≤ 2 ∨ h % 2 = 1
    · rw [if_pos (by omega), if_pos (by omega)]
    · rw [if_neg (by omega), if_neg (by omega)]
  refine ⟨rfl, hset, fun hw h30 p hp pk sk seed => ?_⟩
  have hp2 := hset.trans hp
  by_cases hlong : 64 ≤ pk.length ∧ 132 ≤ sk.length ∧ 48 ≤ seed.length
  · right
    obtain ⟨a1, a2, s, g1, g2⟩ := (C92_genkeypair S hf hw hp2 rfl h30 pk sk seed).2 hlong.1 hlong.2.1 hlong.2.2
    obtain ⟨b1, b2, s', g1', g2'⟩ := (C89_fast_genkeypair S hf hw hp h30 pk sk seed).2 hlong.1 hlong.2.1 hlong.2.2
    have E := Outcome.ok.inj (g2.symm.trans g2')
    simp only [Prod.mk.injEq] at E
    obtain ⟨-, z2, z3⟩ := E
    subst z2 z3
    refine ⟨a1, a2, s, s', g1, g1', fun cs hcs => ?_⟩
    exact (C92_history S hf hw hp2 rfl (by omega) h30 pk sk seed 0 a1 a2 s g1 cs hcs).trans
      (C89_fast_history S hf hw hp h30 pk sk seed 0 a1 a2 s' g1' cs hcs).symm
  · left
    exact ⟨(C92_genkeypair S hf hw hp2 rfl h30 pk sk seed).1 (by omega),
      (C89_fast_genkeypair S hf hw hp h30 pk sk seed).1 (by omega)⟩

example (seed pk sk : Bytes) (hs : seed.length = 48) (h1 : pk.length = 64) (h2 : sk.length = 132) : ∃ p pk' sk' st st',
    xmssSetParams 6 16 = ok p ∧
    BK.xmssfastGenkeypairBuf 2 toySha .shake_128 p pk sk (BK.bdsInit 2 6) seed = ok (0, pk', sk', st) ∧
    xmssfastGenkeypairBuf toySha .shake_128 p pk sk (bdsInit 6) seed = ok (0, pk', sk', st') ∧
    (BK.cRun 2 toySha .shake_128 p (sk', st) [.update 5, .update 9]).map (fun y => (y.1, y.2.1)) =
      (cRun toySha .shake_128 p (sk', st') [.update 5, .update 9]).map (fun y => (y.1, y.2.1)) := by
  obtain ⟨p, -, e⟩ := bk_demo_params
  obtain ⟨-, e2, H⟩ := C92_two toySha .shake_128 6 16
  rw [e2] at e
  rcases H (by omega) (by omega) p e pk sk seed with hu | ⟨pk', sk', st, st', a, b, c⟩
  · obtain ⟨_, _, _, g, -⟩ := (C89_fast_genkeypair toySha .shake_128 (by omega) e (by omega) pk sk seed).2 (by omega) (by omega) (by omega)
    rw [hu.2] at g
    cases g
  · exact ⟨p, pk', sk', st, st', e, a, b, c _ (by simp)⟩

end Qrl.Props
