import Verif.Proof.BdsKLarge
import Verif.Props.BdsK
import Verif.Props.Price
/-!
# C92: `k = 28`, where the offsets of the retained nodes wrap around
-/

namespace Qrl.Props

open Outcome Qrl.Spec

/-- Equal nodes on different levels above the leaves: a collision. -/
theorem node_levels {G : Bytes → Bytes} (hG : Out32 G) {w len : Nat} {sk ps : Bytes} {l i l' i' : Nat} (hl : l < 2 ^ 32) (hl' : l' < 2 ^ 32)
    (hi : i < 2 ^ 32) (hi' : i' < 2 ^ 32) (hne : l ≠ l') (h : node G w len sk ps (l + 1) i = node G w len sk ps (l' + 1) i') :
    Collides G (nodeCalls G w len sk ps (l + 1) i ++ nodeCalls G w len sk ps (l' + 1) i') := by
  simp only [node] at h
  generalize hx : node G w len sk ps l (2 * i) = x1 at h
  generalize hx2 : node G w len sk ps l (2 * i + 1) = x2 at h
  generalize hy : node G w len sk ps l' (2 * i') = y1 at h
  generalize hy2 : node G w len sk ps l' (2 * i' + 1) = y2 at h
  have hc : Collides G (HCalls G ps 2 0 l i x1 x2 ++ HCalls G ps 2 0 l' i' y1 y2) := by
    by_cases e : (HCall.h (PRF G ps (address 2 0 l i 0)) (Spec.xor (x1 ++ x2)
          (PRF G ps (address 2 0 l i 1) ++ PRF G ps (address 2 0 l i 2)))).input =
        (HCall.h (PRF G ps (address 2 0 l' i' 0)) (Spec.xor (y1 ++ y2)
          (PRF G ps (address 2 0 l' i' 1) ++ PRF G ps (address 2 0 l' i' 2)))).input
    · simp only [HCall.input, List.append_assoc] at e
      have e := List.append_cancel_left e
      obtain ⟨e1, -⟩ := List.append_inj e (by rw [PRF_len hG, PRF_len hG])
      rcases PRF_cases (cs := HCalls G ps 2 0 l i x1 x2 ++ HCalls G ps 2 0 l' i' y1 y2) (by simp [HCalls]) (by simp [HCalls]) e1 with e3 | e3
      · obtain ⟨_, _, h3, _⟩ := address_inj ⟨by omega, by omega, hl, hi, by omega⟩ ⟨by omega, by omega, hl', hi', by omega⟩ e3
        exact absurd h3 hne
      · exact e3
    · exact ⟨_, by simp [HCalls], _, by simp [HCalls], e, h⟩
  refine hc.mono ?_
  intro z hz
  simp only [nodeCalls, List.mem_append, hx, hx2, hy, hy2] at hz ⊢
  tauto

/-- C92. With `k = 28` (and `h = 30`, the only height for it) the retained nodes take more than 4 GiB and the byte offset of a slot, a
32-bit number, wraps around: key generation, which still makes the right key, overwrites retained nodes. A program that then goes to
leaf 16 with `xmssfast_update`, which returns 0, and signs, which returns 0, gets a signature with index 16 that `xmss_Verifysig`
rejects, or the hash function has a collision among the listed calls. -/
theorem C92_large_refuted (S : Sha256) (hf : HashFn) {w : Nat} (hw : w = 2 ∨ w = 4 ∨ w = 16 ∨ w = 256) {p : XmssParams}
    (hp : BK.xmssSetParams 28 30 w = ok p) (pk sk seed : Bytes) (c : Int) (pk' sk' : Bytes) (st : BdsState)
    (hgen : BK.xmssfastGenkeypairBuf 28 S hf p pk sk (BK.bdsInit 28 30) seed = ok (c, pk', sk', st)) (buf m : Bytes)
    (hb : signatureSize w 30 ≤ buf.length) :
    let x := shake256 96 (seed.take 48)
    let root := node (hf.prim S) w (lenW w) (x.take 32) (x.drop 64) 30 0
    ∃ sig, (BK.cRun 28 S hf p (sk', st) [.update 16, .sign buf m m.length]).map (fun y => (y.1, y.2.1)) =
        some ([.code 0, .signed 0 (sig ++ buf.drop (signatureSize w 30))], be 4 17 ++ sk'.drop 4) ∧
      sig.length = signatureSize w 30 ∧ sigIndex sig = 16 ∧
      (xmssVerifysigBuf S hf p.wots m m.length sig pk' 30 = ok (-1, m) ∨
        Collides (hf.prim S) (rootFromSigCalls (hf.prim S) w 30 root (x.drop 64) m sig ++
          nodeCalls (hf.prim S) w (lenW w) (x.take 32) (x.drop 64) 30 0)) := by
  intro x root
  obtain ⟨hk, e1, e2⟩ := bk_params hp
  obtain ⟨k, q, hsp, h1, h2⟩ := setParams_ok hw e2
  have hw1 : 1 ≤ lenW w := lenW_pos hw
  obtain ⟨st', hinv, e⟩ := BK.xmssfastGenkeypairBuf_eq S hf p h1 (κ := 28) ⟨by omega, by omega, by omega⟩ (by omega) (by omega) (by omega) pk sk seed
  rw [e1, hgen] at e
  split at e
  · cases e
  next hc =>
  have e' := Outcome.ok.inj e
  obtain ⟨-, e5, e3, e4⟩ := (by simpa using e' : c = 0 ∧ pk' = _ ∧ sk' = _ ∧ st = _)
  subst e4
  generalize hK : keyOf S hf w 30 hw1 (seed.take 48) = K
  have hsk : sk' = K.sk 0 ++ sk.drop 132 := by
    rw [e3, ← hK, ← keyOf_sk0, hsp.len, hsp.pw]
    simp only [List.append_assoc]
    rfl
  have k1 : K.skSeed = x.take 32 := by rw [← hK]; rfl
  have k3 : K.ps = x.drop 64 := by rw [← hK]; rfl
  have k4 : K.root = root := by rw [← hK]; rfl
  have hd : sk'.drop 132 = sk.drop 132 := by rw [hsk, List.drop_left' (K.length_sk 0)]
  have hinv' : BK.BdsInv 28 (node (hf.prim S) p.wots.w p.wots.len K.skSeed K.ps) p.h 0 (fun _ => none) st := by
    rw [k1, k3]; exact hinv
  obtain ⟨s16, s17, a1, a2, a3⟩ := BK.adv_large S hf p K.skSeed K.ps h1 e1 hinv'
  generalize hN : node (hf.prim S) p.wots.w p.wots.len K.skSeed K.ps = N at a2 hinv'
  have hN32 : ∀ l i : Nat, (N l i).length = 32 := fun l i => by rw [← hN]; exact length_node S hf _ _ _ _ h1 l i
  have hup : BK.xmssfastUpdateBuf 28 S hf p (K.sk 0 ++ sk.drop 132) st 16 = .ret 0 (K.sk 16 ++ sk.drop 132, s16) := by
    have hl := K.length_sk
    rw [BK.xmssfastUpdateBuf, if_neg (by omega), be32At_append (show 4 ≤ (K.sk 0).length by have := hl 0; omega), K.idx 0 (by omega)]
    dsimp only
    rw [show (16 : UInt32).toNat = 16 from rfl, e1, if_neg (by omega), if_neg (by omega)]
    simp only [slice_append (show 4 + 32 ≤ (K.sk 0).length by have := hl 0; omega),
      slice_append (show 68 + 32 ≤ (K.sk 0).length by rw [hl]; omega), K.seed_slice, K.ps_slice, ok_bind, Nat.sub_zero, a1, K.put, Step.ofOutcome]
  have hsg := BK.xmssfastSignmsgBuf_eqP S hf hsp K (κ := 28) (BK.wrongPath N) (fun i _ => BK.length_wrongPath hN32 i) a2 16 (by omega)
    (st' := s17) (by
      intro b c d
      rw [if_pos (by rw [e1]; omega)]
      exact a3 0 16 b c d) (sk.drop 132) buf m m.length
  rw [e1, if_neg (by omega), List.take_length] at hsg
  generalize hs : be 4 16 ++ PRF (hf.prim S) K.skPrf (be 32 16) ++ (wotsSig (hf.prim S) K.skSeed K.ps 16 (wotsDigits w
    (digest (hf.prim S) (PRF (hf.prim S) K.skPrf (be 32 16)) K.root 16 m))).flatten = pre at hsg
  have hpre : pre.length = 36 + 32 * lenW w := by
    rw [← hs, List.length_append, List.length_append, length_be, length_PRF, length_flatten32 _ (mem_wotsSig S hf _ _ _ _)]
    simp only [wotsSig, List.length_map, List.length_zipIdx]
    rw [length_wotsDigits hsp _ (show (digest (hf.prim S) _ _ _ _).length = 32 from length_Hmsg ..), hsp.len]
  have hmem : ∀ y ∈ (List.range 30).map (BK.wrongPath N), y.length = 32 := by
    intro y hy
    obtain ⟨l, -, rfl⟩ := List.mem_map.mp hy
    exact BK.length_wrongPath hN32 l
  have hfl : ((List.range 30).map (BK.wrongPath N)).flatten.length = 32 * 30 := by
    rw [length_flatten32 _ hmem]; simp
  have hlsig : (pre ++ ((List.range 30).map (BK.wrongPath N)).flatten).length = signatureSize w 30 := by
    rw [List.length_append, hpre, hfl, signatureSize]
  have hidx : sigIndex (pre ++ ((List.range 30).map (BK.wrongPath N)).flatten) = 16 := by
    rw [sigIndex, ← hs]
    simp only [List.append_assoc]
    rw [List.take_left' (length_be ..), byteVal_be, Nat.mod_eq_of_lt (by omega)]
  refine ⟨pre ++ ((List.range 30).map (BK.wrongPath N)).flatten, ?_, hlsig, hidx, ?_⟩
  · rw [hsk, BK.cRun, BK.cCall, hup]
    simp only [Option.bind_eq_bind, Option.bind_some]
    rw [BK.cRun, BK.cCall, hsg]
    simp only [Option.bind_eq_bind, Option.bind_some, BK.cRun, Option.map_some]
    rw [← hsk, ← reindexed (K := K) (i := 0) (by rw [hd]; exact hsk), hd]
  · have hpath : sigPath w 30 (pre ++ ((List.range 30).map (BK.wrongPath N)).flatten) = (List.range 30).map (BK.wrongPath N) := by
      have := Qrl.chunks_flatten pre _ hmem [] _ hpre
      rw [List.append_nil, List.length_map, List.length_range] at this
      exact this
    generalize pre ++ ((List.range 30).map (BK.wrongPath N)).flatten = sig at hlsig hidx hpath ⊢
    have hps : K.ps.length = 32 := K.l3
    have hrl : root.length = 32 := length_node S hf _ _ _ _ hw1 _ _
    have hpk : pk' = root ++ (x.drop 64 ++ pk.drop 64) := by
      rw [e5, ← hsp.len, hsp.pw]
    have hpsl : (x.drop 64).length = 32 := by rw [← k3]; exact hps
    have hu : (30 : UInt8).toNat = 30 := rfl
    rw [C89_verifysig S hf hw e2 _ _ _ _ _ (by decide), hu, hpk]
    have t1 : (root ++ (x.drop 64 ++ pk.drop 64)).take 32 = root := List.take_left' hrl
    have t2 : ((root ++ (x.drop 64 ++ pk.drop 64)).drop 32).take 32 = x.drop 64 := by
      rw [List.drop_left' hrl, List.take_left' hpsl]
    rw [t1, t2, List.take_length, if_neg (by simp only [List.length_append, hrl, hpsl, hlsig]; omega)]
    split
    swap
    · exact Or.inl rfl
    next hr =>
    right
    rw [signatureSize] at hlsig
    rcases honest_root (out32 S hf) hw (by omega) (by omega) (by omega) rfl hr with ⟨-, g, -⟩ | g
    swap
    · exact g
    rw [hpath, hidx] at g
    have g3 := congrArg (fun l : List Bytes => l[3]?) g
    simp only [authPath] at g3
    rw [List.getElem?_map, List.getElem?_map, List.getElem?_range (by omega)] at g3
    have g4 := Option.some.inj g3
    rw [BK.wrongPath_three, ← hN, ← hsp.len, hsp.pw, k1, k3] at g4
    have g5 := node_levels (out32 S hf) (l := 1) (l' := 2) (by omega) (by omega) (by omega) (show 3 < 2 ^ 32 by omega) (by omega) g4
    refine g5.mono ?_
    intro z hz
    rw [List.mem_append] at hz ⊢
    right
    rcases hz with hz | hz
    · exact nodeCalls_sub (hf.prim S) w (lenW w) (x.take 32) (x.drop 64) 28 2 134217733 hz
    · exact nodeCalls_sub (hf.prim S) w (lenW w) (x.take 32) (x.drop 64) 27 3 3 hz

theorem bk_demo_large (S : Sha256) (hf : HashFn) (pk sk seed : Bytes) (h1 : pk.length = 64) (h2 : sk.length = 132) (h3 : seed.length = 48) :
    ∃ p pk' sk' st, BK.xmssSetParams 28 30 16 = ok p ∧
      BK.xmssfastGenkeypairBuf 28 S hf p pk sk (BK.bdsInit 28 30) seed = ok (0, pk', sk', st) ∧
      xmssGenkeypairBuf S hf p pk sk seed = ok (0, pk', sk') := by
  obtain ⟨wp, -, a, -⟩ := C92_set_params (w := 16) (by omega) 30 28
  have e := a (by omega) (by omega) (by omega)
  obtain ⟨pk', sk', st, g1, g2⟩ := (C92_genkeypair S hf (by omega) e (by omega) (by omega) pk sk seed).2 (by omega) (by omega) (by omega)
  exact ⟨_, pk', sk', st, e, g1, g2⟩

/-- There is such a program: the key generation succeeds and makes the right key. -/
example (pk sk seed buf : Bytes) (h1 : pk.length = 64) (h2 : sk.length = 132) (h3 : seed.length = 48) (h4 : buf.length = 3140) :
    ∃ p sk' st sig key, (BK.cRun 28 toySha .shake_128 p (sk', st) [.update 16, .sign buf [7] 1]).map (fun y => (y.1, y.2.1)) =
      some ([.code 0, .signed 0 sig], key) := by
  obtain ⟨p, pk', sk', st, e, g, -⟩ := bk_demo_large toySha .shake_128 pk sk seed h1 h2 h3
  have hz : signatureSize 16 30 = 3140 := by rw [signatureSize, lenW_values.2.2.1]
  obtain ⟨sig, r, -⟩ := C92_large_refuted toySha .shake_128 (by omega) e pk sk seed 0 pk' sk' st g buf [7] (by omega)
  exact ⟨p, sk', st, _, _, r⟩

end Qrl.Props
