import Verif.Proof.RustBdsKLarge
import Verif.Props.RustBdsK
import Verif.Props.BdsKLarge
/-!
# C93: `k = 28` in the Rust crate
-/

namespace Qrl.Props

open Qrl.Spec

/-- C93. With `k = 28` (and `h = 30`, the only height for it) key generation panics in a debug build, whatever it is given: the offset of
a retained node is a `u32` and overflows. -/
theorem C93_large_debug_refuted (S : Sha256) (hf : HashFn) {w : Nat} (hw : RangeW w) {p : XmssParams} (hp : Rs.RK.xmssParams 28 30 w = .ok p)
    (pk sk seed : Bytes) : Rs.RK.xmssFastGenKeypairRaw 28 .debug S hf p pk sk (Rs.RK.bdsInit 28 30) seed = .panic := by
  obtain ⟨-, -, -, rfl⟩ := rk_params hp
  exact Rs.RK.fastGenKeypairRaw_239 S hf hw pk sk seed

example (pk sk seed : Bytes) : Rs.RK.xmssFastGenKeypairRaw 28 .debug toySha .shake_128 ⟨Rs.wotsParams 16, 30⟩ pk sk (Rs.RK.bdsInit 28 30) seed =
    .panic :=
  C93_large_debug_refuted toySha .shake_128 (by decide) ((C93_params 28 30 16).1 (by omega) (by omega) (by omega)) pk sk seed

/-- A signature with index 16 and the wrong path is not accepted, or there is a collision. -/
theorem wrong_path_root (S : Sha256) (hf : HashFn) {w : Nat} (hw : w = 2 ∨ w = 4 ∨ w = 16 ∨ w = 256) {skSeed ps m sig : Bytes}
    (hlsig : sig.length = signatureSize w 30) (hidx : sigIndex sig = 16)
    (hpath : sigPath w 30 sig = (List.range 30).map (BK.wrongPath (node (hf.prim S) w (lenW w) skSeed ps)))
    (hr : rootFromSig (hf.prim S) w 30 (node (hf.prim S) w (lenW w) skSeed ps 30 0) ps m sig = node (hf.prim S) w (lenW w) skSeed ps 30 0) :
    Collides (hf.prim S) (rootFromSigCalls (hf.prim S) w 30 (node (hf.prim S) w (lenW w) skSeed ps 30 0) ps m sig ++
      nodeCalls (hf.prim S) w (lenW w) skSeed ps 30 0) := by
  rw [signatureSize] at hlsig
  rcases honest_root (out32 S hf) hw (by omega) (by omega) (by omega) rfl hr with ⟨-, g, -⟩ | g
  swap
  · exact g
  rw [hpath, hidx] at g
  have g3 := congrArg (fun l : List Bytes => l[3]?) g
  simp only [authPath] at g3
  rw [List.getElem?_map, List.getElem?_map, List.getElem?_range (by omega)] at g3
  have g4 := Option.some.inj g3
  rw [BK.wrongPath_three] at g4
  have g5 := node_levels (out32 S hf) (l := 1) (l' := 2) (by omega) (by omega) (by omega) (show 3 < 2 ^ 32 by omega) (by omega) g4
  refine g5.mono ?_
  intro z hz
  rw [List.mem_append] at hz ⊢
  right
  rcases hz with hz | hz
  · exact nodeCalls_sub (hf.prim S) w (lenW w) skSeed ps 28 2 134217733 hz
  · exact nodeCalls_sub (hf.prim S) w (lenW w) skSeed ps 27 3 3 hz

/-- C93. With `k = 28` in a release build key generation succeeds and makes the right key (`C93_gen_keypair`), but retained nodes
overwrite each other. A program that goes to leaf 16 with `xmss_fast_update` and signs a message that the crate hashes correctly gets
`Ok(0)` twice and a signature with index 16 that `xmss_verify_sig` rejects, or the hash function has a collision among the listed
calls. -/
theorem C93_large_release_refuted (S : Sha256) (hf : HashFn) {w : Nat} (hw : w = 2 ∨ w = 4 ∨ w = 16 ∨ w = 256) {p : XmssParams}
    (hp : Rs.RK.xmssParams 28 30 w = .ok p) (pk sk seed : Bytes) (pk' sk' : Bytes) (st : BdsState)
    (hgen : Rs.RK.xmssFastGenKeypairRaw 28 .release S hf p pk sk (Rs.RK.bdsInit 28 30) seed = .ok (pk', sk', st)) (buf m : Bytes)
    (hm : rustShort hf m) (hb : signatureSize w 30 ≤ buf.length) :
    let x := shake256 96 (seed.take 48)
    let root := node (hf.prim S) w (lenW w) (x.take 32) (x.drop 64) 30 0
    ∃ sig, (Rs.RK.sliceRun 28 .release S hf p (sk', st) [.update 16, .sign buf m m.length]).map (fun y => (y.1, y.2.1)) =
        some ([.code 0, .signed 0 (sig ++ buf.drop (signatureSize w 30))], be 4 17 ++ sk'.drop 4) ∧
      sig.length = signatureSize w 30 ∧ sigIndex sig = 16 ∧
      ((∀ b, Rs.xmssVerifySigRaw b S hf p.wots m m.length sig pk' 30 = .ok (-1, m)) ∨
        Collides (hf.prim S) (rootFromSigCalls (hf.prim S) w 30 root (x.drop 64) m sig ++
          nodeCalls (hf.prim S) w (lenW w) (x.take 32) (x.drop 64) 30 0)) := by
  intro x root
  obtain ⟨-, -, -, rfl⟩ := rk_params hp
  have hu : UsableW w := by unfold UsableW; omega
  have hwr : RangeW w := by unfold RangeW; omega
  have hrl : rustLen w = lenW w := Rs.rustLen_usable hu
  have hw1 := Rs.rustLen_pos hwr
  have hsz : rustSize w 30 = signatureSize w 30 := by rw [rustSize, signatureSize, hrl]
  obtain ⟨st', hinv, e⟩ := Rs.RK.fastGenKeypairRaw_eq S .release hf hwr (κ := 28) (h := 30) ⟨by omega, by omega, by omega⟩ (Or.inl rfl) (by omega)
    (by omega) (by omega) pk sk seed
  rw [hgen] at e
  split at e
  · cases e
  next hc =>
  have e' := Rs.Res.ok.inj e
  obtain ⟨e5, e3, e4⟩ := (by simpa using e' : pk' = _ ∧ sk' = _ ∧ st = _)
  subst e4
  generalize hK : keyP S hf w (rustLen w) 30 hw1 (seed.take 48) = K
  have hsk : sk' = K.sk 0 ++ sk.drop 132 := by
    rw [e3, ← hK, ← keyP_sk0]
    simp only [List.append_assoc]
    rfl
  have k1 : K.skSeed = x.take 32 := by rw [← hK]; rfl
  have k3 : K.ps = x.drop 64 := by rw [← hK]; rfl
  have hd : sk'.drop 132 = sk.drop 132 := by rw [hsk, List.drop_left' (K.length_sk 0)]
  have hinv' : BK.BdsInv 28 (node (hf.prim S) w (rustLen w) K.skSeed K.ps) 30 0 (fun _ => none) st := by
    rw [k1, k3]; exact hinv
  obtain ⟨s16, s17, a1, a2, a3⟩ := BK.adv_large S hf ⟨Rs.wotsParams w, 30⟩ K.skSeed K.ps hw1 rfl hinv'
  change ∀ i, i < 30 → s16.auth[i]? = some (some (BK.wrongPath (node (hf.prim S) w (rustLen w) K.skSeed K.ps) i)) at a2
  generalize hN : node (hf.prim S) w (rustLen w) K.skSeed K.ps = N at a2 hinv'
  have hN32 : ∀ l i : Nat, (N l i).length = 32 := fun l i => by rw [← hN]; exact length_node S hf _ _ _ _ hw1 l i
  have a1' := Rs.RK.advanceLoop_sim S hf .release (κ := 28) (by omega) (Or.inl rfl) K.skSeed ⟨Rs.wotsParams w, 30⟩ K.ps K.l1 K.l3 (by dsimp only; decide)
    (by dsimp only; decide) 16 0 st (by dsimp only; decide) _ a1
  have a3' : ∀ b' c' d' : Nat, (Rs.RK.bdsRound 28 .release S hf s16 16 K.skSeed ⟨Rs.wotsParams w, 30⟩ K.ps ⟨0, 0, 0, 0, 16, b', c', d'⟩ >>=
      fun st => Rs.RK.bdsTreehashUpdate 28 S hf K.skSeed ⟨Rs.wotsParams w, 30⟩ K.ps ⟨0, 0, 0, 0, 16, b', c', d'⟩ ((30 - 28) >>> 1) st) =
      .ok s17 := by
    intro b' c' d'
    have s1 := Rs.RK.bdsRound_sim S hf .release (κ := 28) (by omega) (Or.inl rfl) s16 16 K.skSeed ⟨Rs.wotsParams w, 30⟩ K.ps
      ⟨0, 0, 0, 0, 16, b', c', d'⟩ (by rw [K.l1]) (by rw [K.l3]) (by dsimp only; decide) (by dsimp only; decide) (by dsimp only; decide)
    rw [Rs.take32_of K.l1, Rs.take32_of K.l3] at s1
    refine Rs.Sim.bind s1 (fun st1 => ?_) _ (a3 0 16 b' c' d')
    have s2 := Rs.RK.bdsTreehashUpdate_sim (κ := 28) S hf K.skSeed ⟨Rs.wotsParams w, 30⟩ K.ps ⟨0, 0, 0, 0, 16, b', c', d'⟩ (by rw [K.l1])
      (by rw [K.l3]) ((30 - 28) >>> 1) st1
    rw [Rs.take32_of K.l1, Rs.take32_of K.l3] at s2
    exact s2
  have hup : Rs.RK.xmssFastUpdateRaw 28 .release S hf ⟨Rs.wotsParams w, 30⟩ (K.sk 0 ++ sk.drop 132) st 16 =
      .ok (0, K.sk 16 ++ sk.drop 132, s16) := by
    rw [Rs.RK.xmssFastUpdateRaw, Rs.key_be32 K (by omega)]
    dsimp only
    rw [Rs.shl1_lt .release (show 30 < 32 by omega), Rs.Res.ok_bind, Rs.Res.ok_bind, show (16 : UInt32).toNat = 16 from rfl, if_neg (by omega), if_neg (by omega), Rs.key_seed, Rs.Res.ok_bind, Rs.key_ps, Rs.Res.ok_bind,
      Nat.sub_zero, a1', Rs.Res.ok_bind, Rs.key_put, Rs.Res.ok_bind]
  obtain ⟨ds, hds⟩ : ∃ ds, Rs.sigHead .release S hf w K 16 (m.take m.length) = some ds := by
    rw [List.take_length, Rs.sigHead, rustSigned_short hm, Option.bind_eq_bind, Option.bind_some, rustPositions, if_pos hu]
    exact ⟨_, rfl⟩
  have hdl := Rs.sigHead_length hwr hds
  have hsg := Rs.RK.fastSignMsgRaw_path S .release hf hwr (κ := 28) (h := 30) (by omega) K (st := s16) (st' := s17) (BK.wrongPath N)
    (fun i _ => BK.length_wrongPath hN32 i) a2 16 (by decide) a3' (sk.drop 132) buf m m.length (Nat.le_refl _) hds (by omega)
  rw [hsz] at hsg
  generalize hs : be 4 16 ++ PRF (hf.prim S) K.skPrf (be 32 16) ++ (wotsSig (hf.prim S) K.skSeed K.ps 16 ds).flatten = pre at hsg
  have hpre : pre.length = 36 + 32 * lenW w := by
    rw [← hs, List.length_append, List.length_append, length_be, length_PRF, Rs.length_wots hf K 16 hdl, hrl]
  have hmem : ∀ y ∈ (List.range 30).map (BK.wrongPath N), y.length = 32 := by
    intro y hy
    obtain ⟨l, -, rfl⟩ := List.mem_map.mp hy
    exact BK.length_wrongPath hN32 l
  have hfl : ((List.range 30).map (BK.wrongPath N)).flatten.length = 32 * 30 := by
    rw [length_flatten32 _ hmem]; simp
  have hlsig : (pre ++ ((List.range 30).map (BK.wrongPath N)).flatten).length = signatureSize w 30 := by
    rw [List.length_append, hpre, hfl, signatureSize]
  have hidx : sigIndex (pre ++ ((List.range 30).map (BK.wrongPath N)).flatten) = 16 := by
    rw [sigIndex, ← hs]
    simp only [List.append_assoc]
    rw [List.take_left' (length_be ..), byteVal_be, Nat.mod_eq_of_lt (by omega)]
  refine ⟨pre ++ ((List.range 30).map (BK.wrongPath N)).flatten, ?_, hlsig, hidx, ?_⟩
  · rw [hsk, Rs.RK.sliceRun, Rs.RK.sliceCall, hup]
    simp only [Option.bind_eq_bind, Option.bind_some]
    rw [Rs.RK.sliceRun, Rs.RK.sliceCall, hsg]
    simp only [Option.bind_eq_bind, Option.bind_some, Rs.RK.sliceRun, Option.map_some]
    rw [← hsk, ← reindexed (K := K) (i := 0) (by rw [hd]; exact hsk), hd]
    rfl
  · have hpath : sigPath w 30 (pre ++ ((List.range 30).map (BK.wrongPath N)).flatten) = (List.range 30).map (BK.wrongPath N) := by
      have := Qrl.chunks_flatten pre _ hmem [] _ hpre
      rw [List.append_nil, List.length_map, List.length_range] at this
      exact this
    generalize pre ++ ((List.range 30).map (BK.wrongPath N)).flatten = sig at hlsig hidx hpath ⊢
    rw [← hN, hrl, k1, k3] at hpath
    rw [or_iff_not_imp_right]
    intro hcol b
    have hroot : root.length = 32 := length_node S hf _ _ _ _ (by rw [← hrl]; exact hw1) _ _
    have hpsl : (x.drop 64).length = 32 := by rw [← k3]; exact K.l3
    have hpk : pk' = root ++ (x.drop 64 ++ pk.drop 64) := by
      rw [e5, hrl]
    rw [C83_verify_sig b S hf w hwr _ _ _ _ _ (by omega), hpk]
    have t1 : (root ++ (x.drop 64 ++ pk.drop 64)).take 32 = root := List.take_left' hroot
    have t2 : ((root ++ (x.drop 64 ++ pk.drop 64)).drop 32).take 32 = x.drop 64 := by
      rw [List.drop_left' hroot, List.take_left' hpsl]
    rw [t1, t2, List.take_length, if_neg (by simp only [List.length_append, hroot, hpsl, hlsig, hrl, signatureSize]; omega)]
    have hR : rustRootAny b S hf w 30 root (x.drop 64) m sig = some (rootFromSig (hf.prim S) w 30 root (x.drop 64) m sig) := by
      rw [rustRootAny, rustSigned_short hm, Option.bind_eq_bind, Option.bind_some, rustPositions.eq_def, if_pos hu, Option.bind_eq_bind, Option.bind_some,
        C67_supported_agree w hw _ (by rw [digest]; exact length_Hmsg ..), rootFromPositions, rootFromSig, hrl]
    rw [hR]
    dsimp only
    rw [if_neg]
    intro hr
    exact hcol (wrong_path_root S hf hw hlsig hidx hpath hr)

theorem rk_demo_large (S : Sha256) (hf : HashFn) (pk sk seed : Bytes) (h1 : pk.length = 64) (h2 : sk.length = 132) (h3 : seed.length = 48) :
    ∃ p pk' sk' st, Rs.RK.xmssParams 28 30 16 = .ok p ∧
      Rs.RK.xmssFastGenKeypairRaw 28 .release S hf p pk sk (Rs.RK.bdsInit 28 30) seed = .ok (pk', sk', st) := by
  have e := (C93_params 28 30 16).1 (by omega) (by omega) (by omega)
  obtain ⟨pk', sk', st, g1, -⟩ := (C93_gen_keypair .release S hf (by decide) e (by omega) (Or.inl rfl) (by omega) pk sk seed).2 (by omega) (by omega)
    (by omega)
  exact ⟨_, pk', sk', st, e, g1⟩

/-- There is such a program. -/
example (pk sk seed buf : Bytes) (h1 : pk.length = 64) (h2 : sk.length = 132) (h3 : seed.length = 48) (h4 : buf.length = 3140) :
    ∃ p sk' st sig key, (Rs.RK.sliceRun 28 .release toySha .shake_128 p (sk', st) [.update 16, .sign buf [7] 1]).map (fun y => (y.1, y.2.1)) =
      some ([.code 0, .signed 0 sig], key) := by
  obtain ⟨p, pk', sk', st, e, g⟩ := rk_demo_large toySha .shake_128 pk sk seed h1 h2 h3
  have hz : signatureSize 16 30 = 3140 := by rw [signatureSize, lenW_values.2.2.1]
  obtain ⟨sig, r, -⟩ := C93_large_release_refuted toySha .shake_128 (by omega) e pk sk seed pk' sk' st g buf [7] (by simp [rustShort, rustRoom])
    (by omega)
  exact ⟨p, sk', st, _, _, r⟩

end Qrl.Props
