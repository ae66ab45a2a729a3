import Verif.Props.Forward
import Verif.Props.Reinit
import Verif.Props.BasicFull
import Verif.Props.Copy
import Verif.Spec.Reuse
/-!
# C70: what reusing a one-time key costs
-/

namespace Qrl.Props

open Outcome Qrl.Spec

/-- Replacing the chain values of an accepted signature by values that end where the old ones end. -/
theorem verify_splice (S : Sha256) {msg msg' sig epk : Bytes} {w : Nat} (hw : w = 2 ∨ w = 4 ∨ w = 16 ∨ w = 256)
    (h : verify S msg sig epk w = ok true) {hf : HashFn} (hh : HashFn.ofNat? (keyHash epk) = some hf) (cs : List Bytes)
    (hcl : cs.length = lenW w) (hcs : ∀ x ∈ cs, x.length = 32)
    (heq : Spec.wotsPkFromSig (hf.prim S) w (keySeed epk) (sigIndex sig) cs (positionsUnder (hf.prim S) w (keyRoot epk) msg' sig) =
      Spec.wotsPkFromSig (hf.prim S) w (keySeed epk) (sigIndex sig) (chunks sig 36 (lenW w))
        (positionsUnder (hf.prim S) w (keyRoot epk) msg sig)) :
    verify S msg' (sig.take 36 ++ cs.flatten ++ sig.drop (36 + 32 * lenW w)) epk w = ok true := by
  obtain ⟨wf, hf', hh', hr⟩ := verify_true_iff hw h
  rw [hh] at hh'
  cases hh'
  have hwl := wf.2.2
  have hL : sig.length = 36 + 32 * lenW w + 32 * keyHeight epk := by omega
  have hfl : cs.flatten.length = 32 * lenW w := by
    rw [← hcl]
    clear heq hcl
    induction cs with
    | nil => rfl
    | cons a l ih =>
      rw [List.flatten_cons, List.length_append, hcs a (by simp), ih (fun x hx => hcs x (by simp [hx]))]
      simp only [List.length_cons]; omega
  have h36 : (sig.take 36).length = 36 := by rw [List.length_take]; omega
  rw [List.append_assoc]
  generalize hsig' : sig.take 36 ++ (cs.flatten ++ sig.drop (36 + 32 * lenW w)) = sig'
  have t4 : sig'.take 4 = sig.take 4 := by
    rw [← hsig', List.take_append_of_le_length (by omega), List.take_take]; rfl
  have t36 : (sig'.drop 4).take 32 = (sig.drop 4).take 32 := by
    rw [← hsig', List.drop_append_of_le_length (by omega), List.take_append_of_le_length (by
      rw [List.length_drop]; omega), List.drop_take, List.take_take]; rfl
  have hc : chunks sig' 36 (lenW w) = cs := by
    rw [← hsig', ← hcl]; exact Qrl.chunks_flatten _ cs hcs _ 36 h36
  have hp' : chunks sig' (36 + 32 * lenW w) (keyHeight epk) = chunks sig (36 + 32 * lenW w) (keyHeight epk) := by
    have hdrop : sig'.drop (36 + 32 * lenW w) = sig.drop (36 + 32 * lenW w) := by
      rw [← hsig', ← List.append_assoc, List.drop_append_of_le_length (by rw [List.length_append]; omega),
        List.drop_eq_nil_of_le (by rw [List.length_append]; omega), List.nil_append]
    apply List.map_congr_left
    intro j _
    have e1 : sig'.drop (36 + 32 * lenW w + 32 * j) = (sig'.drop (36 + 32 * lenW w)).drop (32 * j) := by
      rw [List.drop_drop]
    have e2 : sig.drop (36 + 32 * lenW w + 32 * j) = (sig.drop (36 + 32 * lenW w)).drop (32 * j) := by
      rw [List.drop_drop]
    rw [e1, e2, hdrop]
  have hlen' : sig'.length = sig.length := by
    rw [← hsig', List.length_append, List.length_append, h36, hfl, List.length_drop]; omega
  have hroot : rootFromSig (hf.prim S) w (keyHeight epk) (keyRoot epk) (keySeed epk) msg' sig' = keyRoot epk := by
    refine Eq.trans ?_ hr
    simp only [rootFromSig, t4, t36, hc, hp']
    congr 2
  rw [C20_verify_spec S msg' sig' epk w hw, if_pos ⟨wf.1, wf.2.1, by rw [hlen']; exact wf.2.2⟩, hh]
  simp only [hroot, decide_true]

/-- The chain values and the head of an honest signature. -/
theorem signature_parts (S : Sha256) (hf : HashFn) {w : Nat} {p : WotsParams} {k q : Nat}
    (hp : SpecParams w p k q) (h : Nat) (sk skPrf ps : Bytes) (idx : Nat) (hi : idx < 2 ^ 32) (msg : Bytes) :
    ∃ r ds, r = Spec.PRF (hf.prim S) skPrf (Spec.be 32 idx) ∧
      ds = wotsDigits w (digest (hf.prim S) r (Spec.node (hf.prim S) w (Spec.lenW w) sk ps h 0) idx msg) ∧
      ds.length = lenW w ∧ (∀ d ∈ ds, d < w) ∧
      ∀ s : Bytes, s.take (36 + 32 * lenW w) = (Spec.signature (hf.prim S) w h sk skPrf ps idx msg).take (36 + 32 * lenW w) →
        byteVal (s.take 4) = idx ∧ (s.drop 4).take 32 = r ∧
        ∀ ch (hc : ch < ds.length), (s.drop (36 + 32 * ch)).take 32 =
          chain (hf.prim S) ps idx ch 0 ds[ch] (wotsSecret (hf.prim S) sk idx ch) := by
  refine ⟨_, _, rfl, rfl, ?_⟩
  generalize hroot : Spec.node (hf.prim S) w (Spec.lenW w) sk ps h 0 = root
  generalize hr : Spec.PRF (hf.prim S) skPrf (Spec.be 32 idx) = r
  have hrl : r.length = 32 := by rw [← hr]; exact length_PRF ..
  generalize hds : Spec.wotsDigits w (Spec.digest (hf.prim S) r root idx msg) = ds
  have hdl : ds.length = lenW w := by
    rw [← hds, length_wotsDigits hp _ (by rw [Spec.digest]; exact length_Hmsg ..), hp.len]
  have hdlt : ∀ d ∈ ds, d < w := by
    rw [← hds]; exact wotsDigits_lt hp _ (by rw [Spec.digest]; exact length_Hmsg ..)
  refine ⟨hdl, hdlt, ?_⟩
  intro s hs
  generalize hws : Spec.wotsSig (hf.prim S) sk ps idx ds = ws
  have hwsx : ∀ x ∈ ws, x.length = 32 := by rw [← hws]; exact mem_wotsSig S hf sk ps idx ds
  have hwsl : ws.length = lenW w := by rw [← hws]; simp [Spec.wotsSig, hdl]
  generalize hau : Spec.authPath (hf.prim S) w (Spec.lenW w) sk ps h idx = au at *
  have hsig : Spec.signature (hf.prim S) w h sk skPrf ps idx msg =
      Spec.be 4 idx ++ r ++ ws.flatten ++ au.flatten := by
    rw [Spec.signature]; simp only [hroot, hr, hds, hws, hau]
  have hb4 := length_be 4 idx
  have hwl : ws.flatten.length = 32 * lenW w := by rw [length_flatten32 ws hwsx, hwsl]
  have hhead : (Spec.be 4 idx ++ r ++ ws.flatten).length = 36 + 32 * lenW w := by
    simp only [List.length_append]; omega
  rw [hsig, List.take_append_of_le_length (by omega), List.take_of_length_le (l := Spec.be 4 idx ++ r ++ ws.flatten) (by omega)] at hs
  have hs' : s = Spec.be 4 idx ++ r ++ ws.flatten ++ s.drop (36 + 32 * lenW w) := by
    rw [← hs, List.take_append_drop]
  generalize s.drop (36 + 32 * lenW w) = rest at hs'
  subst hs'
  clear hs
  refine ⟨?_, ?_, ?_⟩
  · rw [List.append_assoc, List.append_assoc, List.take_append, List.take_of_length_le (by omega),
      hb4, Nat.sub_self, List.take_zero, List.append_nil, byteVal_be, Nat.mod_eq_of_lt (by omega)]
  · rw [List.append_assoc, List.append_assoc, List.drop_append, List.drop_eq_nil_of_le (by omega), hb4,
      Nat.sub_self, List.nil_append, List.drop_zero, List.take_append, List.take_of_length_le (by omega), hrl,
      Nat.sub_self, List.take_zero, List.append_nil]
  · intro ch hc
    have t3 : Spec.chunks (Spec.be 4 idx ++ r ++ ws.flatten ++ rest) 36 (Spec.lenW w) = ws := by
      rw [List.append_assoc, ← hwsl]
      exact Qrl.chunks_flatten _ ws hwsx _ 36 (by simp [hb4, hrl])
    have hcw : ch < ws.length := by omega
    have e1 : ws[ch] = chain (hf.prim S) ps idx ch 0 ds[ch] (wotsSecret (hf.prim S) sk idx ch) := by
      simp [← hws, Spec.wotsSig]
    rw [← e1]
    have e2 : (Spec.chunks (Spec.be 4 idx ++ r ++ ws.flatten ++ rest) 36 (Spec.lenW w))[ch]? = ws[ch]? := by rw [t3]
    rw [chunks, List.getElem?_map, List.getElem?_range (by omega), List.getElem?_eq_getElem hcw] at e2
    exact Option.some.inj e2

/-- C70. Signatures made with one one-time key, for any messages: whoever knows them (only their index, randomiser and
chain values need to be honest, except in `sig0`, which must be whole) has an accepted signature for every message whose
chain positions they cover. -/
theorem C70_reuse_forges (S : Sha256) (hf : HashFn) (w : Nat) (hw : w = 2 ∨ w = 4 ∨ w = 16 ∨ w = 256) (h : Nat) (seed pk : Bytes)
    (hh : HashFn.ofNat? (keyHash pk) = some hf) (hseed : keySeed pk = (shake256 96 seed).drop 64)
    (hroot : keyRoot pk = Spec.node (hf.prim S) w (lenW w) ((shake256 96 seed).take 32) ((shake256 96 seed).drop 64) h 0)
    (i : Nat) (hi : i < 2 ^ 32) (m0 : Bytes)
    (h0 : verify S m0 (seedSignature S hf w h seed i m0) pk w = ok true) (known : List (Bytes × Bytes))
    (hk : ∀ x ∈ known, x.2.take (36 + 32 * lenW w) = (seedSignature S hf w h seed i x.1).take (36 + 32 * lenW w))
    (msg : Bytes) (hc : Covered (hf.prim S) w (keyRoot pk) known msg (seedSignature S hf w h seed i m0)) :
    verify S msg (spliceForward (hf.prim S) w (keyRoot pk) (keySeed pk) known msg (seedSignature S hf w h seed i m0)) pk w =
      ok true := by
  have hG := out32 S hf
  obtain ⟨p, k, q, hp, hsp, _⟩ := base_ok hw
  -- everything about honest signatures with key `i`
  generalize hr : Spec.PRF (hf.prim S) (((shake256 96 seed).drop 32).take 32) (Spec.be 32 i) = r
  let D : Bytes → List Nat := fun m => wotsDigits w (digest (hf.prim S) r (keyRoot pk) i m)
  have parts : ∀ m, (D m).length = lenW w ∧ (∀ d ∈ D m, d < w) ∧ ∀ s : Bytes,
      s.take (36 + 32 * lenW w) = (seedSignature S hf w h seed i m).take (36 + 32 * lenW w) →
        byteVal (s.take 4) = i ∧ (s.drop 4).take 32 = r ∧
        ∀ ch (hc : ch < (D m).length), (s.drop (36 + 32 * ch)).take 32 =
          chain (hf.prim S) (keySeed pk) i ch 0 (D m)[ch] (wotsSecret (hf.prim S) ((shake256 96 seed).take 32) i ch) := by
    intro m
    obtain ⟨r', ds, e1, e2, e3, e4, e5⟩ := signature_parts S hf hsp h ((shake256 96 seed).take 32)
      (((shake256 96 seed).drop 32).take 32) ((shake256 96 seed).drop 64) i hi m
    rw [hr] at e1
    subst e1
    rw [← hroot] at e2
    have e2' : ds = D m := e2
    subst e2'
    refine ⟨e3, e4, fun s hs => ?_⟩
    rw [hseed]
    exact e5 s hs
  have hD : ∀ m, wotsDigits w (digest (hf.prim S) r (keyRoot pk) i m) = D m := fun _ => rfl
  clear_value D
  have hpos : ∀ m m' s, s.take (36 + 32 * lenW w) = (seedSignature S hf w h seed i m').take (36 + 32 * lenW w) →
      positionsUnder (hf.prim S) w (keyRoot pk) m s = D m := by
    intro m m' s hs
    obtain ⟨e1, e2, _⟩ := (parts m').2.2 s hs
    rw [positionsUnder, e1, e2, hD]
  have p0 := (parts m0).2.2 _ rfl
  have hpos0 := fun m => hpos m m0 _ rfl
  have hposk : ∀ x ∈ known, positionsUnder (hf.prim S) w (keyRoot pk) x.1 x.2 = D x.1 := fun x hx => hpos _ _ _ (hk x hx)
  generalize seedSignature S hf w h seed i m0 = s0 at *
  obtain ⟨q1, q2, q3⟩ := p0
  -- what a chain of the new signature is
  have hchain : ∀ ch, (hch : ch < lenW w) → (match known.find? fun x => (positionsUnder (hf.prim S) w (keyRoot pk) x.1 x.2).getD ch 0 ≤
        (positionsUnder (hf.prim S) w (keyRoot pk) msg s0).getD ch 0 with
      | none => []
      | some x => chain (hf.prim S) (keySeed pk) (byteVal (s0.take 4)) ch
          ((positionsUnder (hf.prim S) w (keyRoot pk) x.1 x.2).getD ch 0)
          ((positionsUnder (hf.prim S) w (keyRoot pk) msg s0).getD ch 0 -
            (positionsUnder (hf.prim S) w (keyRoot pk) x.1 x.2).getD ch 0) ((x.2.drop (36 + 32 * ch)).take 32)) =
      chain (hf.prim S) (keySeed pk) i ch 0 ((D msg)[ch]'(by rw [(parts msg).1]; exact hch))
        (wotsSecret (hf.prim S) ((shake256 96 seed).take 32) i ch) := by
    intro ch hch
    have hm : ch < (D msg).length := by rw [(parts msg).1]; exact hch
    cases hfind : known.find? fun x => (positionsUnder (hf.prim S) w (keyRoot pk) x.1 x.2).getD ch 0 ≤
        (positionsUnder (hf.prim S) w (keyRoot pk) msg s0).getD ch 0 with
    | none =>
      exfalso
      obtain ⟨x, hx, d, e1, e2⟩ := hc ch (D msg)[ch] (by rw [hpos0]; exact List.getElem?_eq_getElem hm)
      have := List.find?_eq_none.mp hfind x hx
      simp only [decide_eq_true_eq] at this
      rw [hpos0, List.getD_eq_getElem?_getD, List.getD_eq_getElem?_getD, e1, List.getElem?_eq_getElem hm] at this
      exact this e2
    | some x =>
      have hx := List.mem_of_find?_eq_some hfind
      have hle := List.find?_some hfind
      simp only [decide_eq_true_eq] at hle
      have hxl : ch < (D x.1).length := by rw [(parts x.1).1]; exact hch
      simp only
      rw [hposk x hx, hpos0, List.getD_eq_getElem?_getD, List.getD_eq_getElem?_getD, List.getElem?_eq_getElem hm,
        List.getElem?_eq_getElem hxl] at hle ⊢
      simp only [Option.getD_some] at hle ⊢
      rw [q1, ((parts x.1).2.2 x.2 (hk x hx)).2.2 ch hxl]
      have := chain_add (hf.prim S) (keySeed pk) i ch (D x.1)[ch] ((D msg)[ch] - (D x.1)[ch]) 0
        (wotsSecret (hf.prim S) ((shake256 96 seed).take 32) i ch)
      rw [Nat.zero_add, show (D x.1)[ch] + ((D msg)[ch] - (D x.1)[ch]) = (D msg)[ch] by omega] at this
      exact this
  have hpkw : ∀ m (cs : List Bytes), cs.length = lenW w → (∀ ch (h1 : ch < cs.length) (h2 : ch < (D m).length), cs[ch] =
      chain (hf.prim S) (keySeed pk) i ch 0 (D m)[ch] (wotsSecret (hf.prim S) ((shake256 96 seed).take 32) i ch)) →
      Spec.wotsPkFromSig (hf.prim S) w (keySeed pk) i cs (D m) =
        (List.range (lenW w)).map fun ch => chain (hf.prim S) (keySeed pk) i ch 0 (w - 1)
          (wotsSecret (hf.prim S) ((shake256 96 seed).take 32) i ch) := by
    intro m cs hcl hcs
    apply List.ext_getElem?
    intro ch
    by_cases hch : ch < lenW w
    · have a1 : ch < cs.length := by omega
      have a2 : ch < (D m).length := by rw [(parts m).1]; exact hch
      have a3 := (parts m).2.1 _ (List.getElem_mem a2)
      rw [getElem_pkFromSig _ _ _ _ _ _ a1 a2, hcs ch a1 a2, List.getElem?_map, List.getElem?_range hch]
      have := chain_add (hf.prim S) (keySeed pk) i ch (D m)[ch] (w - 1 - (D m)[ch]) 0
        (wotsSecret (hf.prim S) ((shake256 96 seed).take 32) i ch)
      rw [Nat.zero_add, show (D m)[ch] + (w - 1 - (D m)[ch]) = w - 1 by omega] at this
      rw [Option.map_some, this]
    · rw [List.getElem?_eq_none (by rw [length_pkFromSig, (parts m).1]; omega), List.getElem?_eq_none (by simp; omega)]
  have hidx : sigIndex s0 = i := q1
  refine verify_splice S hw h0 hh _ (by simp) ?_ ?_
  · intro x hx
    obtain ⟨ch, hch, rfl⟩ := List.mem_map.mp hx
    have hch := List.mem_range.mp hch
    refine (congrArg List.length (hchain ch hch)).trans ?_
    exact chain_len hG _ _ _ _ _ _ (hG _)
  · rw [hidx, hpos0, hpos0, hpkw msg, hpkw m0]
    · rw [length_chunks]
    · intro ch h1 h2
      rw [← q3 ch h2]
      simp [chunks]
    · simp
    · intro ch h1 h2
      rw [List.getElem_map]
      simp only [List.getElem_range]
      have := hchain ch (by simpa using h1)
      simp only [hpos0] at this
      exact this

theorem fullRun_pairs (limit : Nat) (σ : Nat → Nat → Bytes → Bytes) (w : Nat) (cs : List FullCall) : ∀ i,
    (∀ w', FullCall.initializeTree w' ∈ cs → w' = w) →
    ∀ x ∈ fullPairs cs (fullRun limit σ w i cs).1, ∃ k, k < limit ∧ x.2 = σ w k x.1 := by
  induction cs with
  | nil => intro i _ x hx; simp [fullPairs] at hx
  | cons c cs ih =>
    intro i hall x hx
    have hall' : ∀ w', FullCall.initializeTree w' ∈ cs → w' = w := fun w' h => hall w' (List.mem_cons_of_mem _ h)
    simp only [fullRun, fullPairs, List.zip_cons_cons, List.filterMap_cons] at hx
    cases c with
    | initializeTree w' =>
      have := hall w' (by simp)
      subst this
      exact ih _ hall' x hx
    | basic c =>
      cases c with
      | setIndex n =>
        simp only [fullCall, counterCall] at hx
        split at hx
        · exact ih _ hall' x hx
        · exact ih _ hall' x hx
      | sign m =>
        simp only [fullCall, counterCall] at hx
        by_cases hl : i < limit
        · simp only [hl, if_true] at hx
          rcases List.mem_cons.mp hx with rfl | hx
          · exact ⟨i, hl, rfl⟩
          · exact ih _ hall' x hx
        · simp only [hl, if_false] at hx
          exact ih _ hall' x hx

theorem looseRun_pairs (limit : Nat) (σ : Nat → Bytes → Bytes) (cs : List Call) : ∀ i rs j,
    looseRun limit σ i cs = some (rs, j) → ∀ x ∈ signedPairs cs rs, ∃ k, k < limit ∧ x.2 = σ k x.1 := by
  induction cs with
  | nil => intro i rs j _ x hx; simp [signedPairs] at hx
  | cons c cs ih =>
    intro i rs j h x hx
    rw [looseRun] at h
    cases c with
    | setIndex n =>
      simp only [looseCall] at h
      cases h1 : looseRun limit σ n.toNat cs with
      | none => rw [h1] at h; cases h
      | some y =>
        obtain ⟨rs1, j1⟩ := y
        rw [h1] at h
        cases h
        exact ih _ _ _ h1 x hx
    | sign m =>
      simp only [looseCall] at h
      by_cases hl : i < limit
      · simp only [hl, if_true] at h
        cases h1 : looseRun limit σ (i + 1) cs with
        | none => rw [h1] at h; cases h
        | some y =>
          obtain ⟨rs1, j1⟩ := y
          rw [h1] at h
          cases h
          simp only [signedPairs, List.zip_cons_cons, List.filterMap_cons] at hx
          rcases List.mem_cons.mp hx with rfl | hx
          · exact ⟨i, hl, rfl⟩
          · exact ih _ _ _ h1 x hx
      · simp only [hl, if_false] at h
        cases h

/-- C70. Any history of an `XmssFast` that may also call `initialize_tree(16)`: from signatures it returned with one index,
whoever knows them has an accepted signature for every message whose chain positions they cover. -/
theorem C70_fast_forgery (S : Sha256) (seed : Bytes) (height : UInt8) (hf : HashFn) (af : Nat) (o0 : XmssFast)
    (hnew : XmssFast.new S seed height hf.toNat af = ok o0) (pk : Bytes) (hpk : o0.getPK = ok pk)
    (cs : List FullCall) (h16 : ∀ w, FullCall.initializeTree w ∈ cs → w = 16) (rs : List FullReply) (o : XmssFast)
    (hrun : runFull S o0 cs = some (rs, o)) (m0 s0 : Bytes) (h0 : (m0, s0) ∈ fullPairs cs rs) (known : List (Bytes × Bytes))
    (hk : ∀ x ∈ known, x ∈ fullPairs cs rs ∧ sigIndex x.2 = sigIndex s0) (msg : Bytes)
    (hc : Covered (hf.prim S) 16 (keyRoot pk) known msg s0) :
    verify S msg (spliceForward (hf.prim S) 16 (keyRoot pk) (keySeed pk) known msg s0) pk 16 = ok true := by
  obtain ⟨o', e, _⟩ := C44_full_refines S seed height hf af o0 hnew cs (fun w hw => by have := h16 w hw; omega)
  rw [hrun] at e
  obtain ⟨rfl, rfl⟩ := e
  have pairs := fullRun_pairs (2 ^ height.toNat) (fun w => seedSignature S hf w height.toNat seed) 16 cs 0 h16
  obtain ⟨hs, hg, f, hf1, hf2, rfl, e2, e3, e4, p, k, q, hp, e5, HH⟩ := fast_fresh hnew
  rw [ofNat?_toNat] at hf2
  cases hf2
  have h32 := HH.pow_lt
  have hpk' := getPK_eq _ o0.toXmssBase 0 HH.hsk
  have e := hpk
  rw [hpk'] at e
  cases e
  obtain ⟨f1, f2, f3, f4, f5⟩ := pk_fields (keyOf S hf 16 o0.height.toNat (lenW_pos (by omega)) seed) o0.toXmssBase hf e2 hg
  obtain ⟨i, hi, rfl⟩ : ∃ i, i < 2 ^ o0.height.toNat ∧ s0 = seedSignature S hf 16 o0.height.toNat seed i m0 := pairs _ h0
  have hix : ∀ j m, j < 2 ^ o0.height.toNat → sigIndex (seedSignature S hf 16 o0.height.toNat seed j m) = j := fun j m hj =>
    sigIndex_signature S hf 16 _ _ _ _ j m (by omega)
  obtain ⟨pk', g1, g2⟩ := verify_honest S hf (w := 16) (by omega) (keyOf S hf 16 o0.height.toNat (lenW_pos (by omega)) seed)
    o0.toXmssBase 0 HH.hsk HH.hof HH.hh HH.hroot i hi m0
  rw [hpk'] at g1
  cases g1
  refine C70_reuse_forges S hf 16 (by omega) o0.height.toNat seed _ (by rw [f2, ofNat?_toNat]) f5 (f4.trans HH.hroot) i (by omega) m0 g2
    known ?_ msg hc
  intro x hx
  obtain ⟨a1, a2⟩ := hk x hx
  obtain ⟨j, hj, e⟩ := pairs x a1
  rw [e, hix j _ hj, hix i _ hi] at a2
  rw [e, a2]

/-- C70. The same for `XmssBasic` (height up to 24) with any of the parameters and any history of `setIndex` and `sign`. -/
theorem C70_basic_forgery (S : Sha256) (seed : Bytes) (height : UInt8) (hf : HashFn) (af w : Nat)
    (hw : w = 2 ∨ w = 4 ∨ w = 16 ∨ w = 256) (hh : GoodHeight height) (h24 : height.toNat ≤ 24) (o0 : XmssBase)
    (hnew : XmssBasic.new S seed height hf.toNat af w = ok o0) (pk : Bytes) (hpk : o0.getPK = ok pk)
    (cs : List Call) (rs : List Reply) (o : XmssBase) (hrun : runCalls (XmssBasic.call S) o0 cs = some (rs, o))
    (m0 s0 : Bytes) (h0 : (m0, s0) ∈ signedPairs cs rs) (known : List (Bytes × Bytes))
    (hk : ∀ x ∈ known, x ∈ signedPairs cs rs ∧ sigIndex x.2 = sigIndex s0) (msg : Bytes)
    (hc : Covered (hf.prim S) w (keyRoot pk) known msg s0) :
    verify S msg (spliceForward (hf.prim S) w (keyRoot pk) (keySeed pk) known msg s0) pk w = ok true := by
  have href := C18_basic_refines S seed height hf af w hw hh h24 o0 hnew cs
  have pairs : ∀ x ∈ signedPairs cs rs, ∃ k, k < 2 ^ height.toNat ∧ x.2 = seedSignature S hf w height.toNat seed k x.1 := by
    cases hl : looseRun (2 ^ height.toNat) (seedSignature S hf w height.toNat seed) 0 cs with
    | none => rw [hl] at href; rw [href] at hrun; cases hrun
    | some y =>
      obtain ⟨rs', j⟩ := y
      rw [hl] at href
      obtain ⟨o', e, _⟩ := href
      rw [hrun] at e
      cases e
      exact looseRun_pairs _ _ cs 0 _ _ hl
  have hs : seed.length = 48 := by
    apply Classical.byContradiction
    intro hne
    have := (C39_basic_throws S seed height hf.toNat af w hw .invalidArgument).mpr ⟨rfl, Or.inl hne⟩
    rw [this] at hnew; cases hnew
  obtain ⟨p, k, q, hp, h1, h2, e⟩ := basicNew_eq S seed height hf af w hw hs hh
  rw [e] at hnew
  cases hnew
  have h32 : 2 ^ height.toNat ≤ 2 ^ 24 := Nat.pow_le_pow_right (by omega) h24
  have hpk' := getPK_eq (keyOf S hf w height.toNat (lenW_pos hw) seed) _ 0
    (show XmssBase.sk (XmssBase.mk ⟨p, height.toNat⟩ hf.toNat af height ((keyOf S hf w height.toNat (lenW_pos hw) seed).sk 0) seed) = _ from rfl)
  have e := hpk
  rw [hpk'] at e
  cases e
  obtain ⟨f1, f2, f3, f4, f5⟩ := pk_fields (keyOf S hf w height.toNat (lenW_pos hw) seed)
    (XmssBase.mk ⟨p, height.toNat⟩ hf.toNat af height ((keyOf S hf w height.toNat (lenW_pos hw) seed).sk 0) seed) hf rfl hh
  obtain ⟨i, hi, rfl⟩ : ∃ i, i < 2 ^ height.toNat ∧ s0 = seedSignature S hf w height.toNat seed i m0 := pairs _ h0
  have hix : ∀ j m, j < 2 ^ height.toNat → sigIndex (seedSignature S hf w height.toNat seed j m) = j := fun j m hj =>
    sigIndex_signature S hf w _ _ _ _ j m (by omega)
  obtain ⟨pk', g1, g2⟩ := verify_honest S hf hw (keyOf S hf w height.toNat (lenW_pos hw) seed)
    (XmssBase.mk ⟨p, height.toNat⟩ hf.toNat af height ((keyOf S hf w height.toNat (lenW_pos hw) seed).sk 0) seed) 0 rfl rfl hh rfl i hi m0
  rw [hpk'] at g1
  cases g1
  refine C70_reuse_forges S hf w hw height.toNat seed _ (by rw [f2, ofNat?_toNat]) f5 f4 i (by omega) m0 g2 known ?_ msg hc
  intro x hx
  obtain ⟨a1, a2⟩ := hk x hx
  obtain ⟨j, hj, e⟩ := pairs x a1
  rw [e, hix j _ hj, hix i _ hi] at a2
  rw [e, a2]

/-- C70. The same for an `XmssFast` and its copy (C49): one message signed by each. The signature of the copy itself is not
accepted, but its chain values serve. -/
theorem C70_copy_forgery (S : Sha256) (seed : Bytes) (height : UInt8) (hf : HashFn) (af : Nat) (o0 : XmssFast)
    (hnew : XmssFast.new S seed height hf.toNat af = ok o0) (pk : Bytes) (hpk : o0.getPK = ok pk) (m1 m2 s1 s2 : Bytes)
    (t1 t2 : Twins) (h1 : o0.copyOf.signOriginal S m1 = .ret s1 t1) (h2 : t1.signCopy S m2 = .ret s2 t2) (msg : Bytes)
    (hc : Covered (hf.prim S) 16 (keyRoot pk) [(m1, s1), (m2, s2)] msg s1) :
    verify S msg (spliceForward (hf.prim S) 16 (keyRoot pk) (keySeed pk) [(m1, s1), (m2, s2)] msg s1) pk 16 = ok true := by
  obtain ⟨s1', s2', t1', t2', g1, g2, g3, g4, g5, g6⟩ := C49_copy_refuted S seed height hf af o0 hnew m1 m2
  rw [h1] at g1
  cases g1
  rw [h2] at g2
  cases g2
  obtain ⟨hs, hg, f, hf1, hf2, rfl, e2, e3, e4, p, k, q, hp, e5, HH⟩ := fast_fresh hnew
  rw [ofNat?_toNat] at hf2
  cases hf2
  have hpk' := getPK_eq _ o0.toXmssBase 0 HH.hsk
  have e := hpk
  rw [hpk'] at e
  cases e
  obtain ⟨f1, f2, f3, f4, f5⟩ := pk_fields (keyOf S hf 16 o0.height.toNat (lenW_pos (by omega)) seed) o0.toXmssBase hf e2 hg
  obtain ⟨pk', v1, v2⟩ := verify_honest S hf (w := 16) (by omega) (keyOf S hf 16 o0.height.toNat (lenW_pos (by omega)) seed)
    o0.toXmssBase 0 HH.hsk HH.hof HH.hh HH.hroot 0 (Nat.two_pow_pos _) m1
  rw [hpk'] at v1
  cases v1
  rw [g3] at hc ⊢
  have h67 : lenW 16 = 67 := by decide
  refine C70_reuse_forges S hf 16 (by omega) o0.height.toNat seed _ (by rw [f2, ofNat?_toNat]) f5 (f4.trans HH.hroot) 0 (by omega) m1 v2
    _ ?_ msg hc
  intro x hx
  rcases List.mem_cons.mp hx with rfl | hx
  · rfl
  · obtain rfl := List.mem_singleton.mp hx
    have hl : (seedSignature S hf 16 o0.height.toNat seed 0 m2).length = 36 + 32 * 67 + 32 * o0.height.toNat := by
      have := length_signature S hf HH.hp HH.hlen o0.height.toNat ((shake256 96 seed).take 32)
        (((shake256 96 seed).drop 32).take 32) ((shake256 96 seed).drop 64) 0 m2
      rw [← HH.hp.len, h67] at this
      exact this.trans (by omega)
    simp only [h67, g6]
    rw [List.take_append_of_le_length (by rw [List.length_take]; omega), List.take_take, Nat.min_self]

/-- The chain positions of `n` zero bytes if the hash is 31 times 7 followed by the length. -/
theorem toy_positions (S : Sha256) (hS : ∀ b, S.hash b = List.replicate 31 7 ++ [UInt8.ofNat b.length]) (w : Nat)
    (root s : Bytes) (hr : root.length = 32) (hs : 36 ≤ s.length) (n : Nat) :
    positionsUnder (HashFn.prim S .sha2_256) w root (List.replicate n 0) s =
      wotsDigits w (List.replicate 31 7 ++ [UInt8.ofNat (128 + n)]) := by
  rw [positionsUnder]
  congr 1
  have hl : (be 32 2 ++ ((s.drop 4).take 32 ++ root ++ be 32 (byteVal (s.take 4))) ++
      List.replicate n (0 : UInt8)).length = 128 + n := by
    simp only [List.length_append, length_be, List.length_replicate, List.length_take, List.length_drop]
    omega
  rw [← hl]
  exact hS _

/-- With such a hash, signatures of 143 and of 112 zero bytes cover 158 zero bytes. -/
theorem toy_covered (S : Sha256) (hS : ∀ b, S.hash b = List.replicate 31 7 ++ [UInt8.ofNat b.length]) (root s1 s2 : Bytes)
    (hroot : root.length = 32) (h1 : 36 ≤ s1.length) (h2 : 36 ≤ s2.length) :
    Covered (HashFn.prim S .sha2_256) 16 root [(List.replicate 143 0, s1), (List.replicate 112 0, s2)] (List.replicate 158 0) s1 := by
  have hcov : ∀ ch d' : Nat, (wotsDigits 16 (List.replicate 31 7 ++ [UInt8.ofNat (128 + 158)]))[ch]? = some d' →
      (∃ d : Nat, (wotsDigits 16 (List.replicate 31 7 ++ [UInt8.ofNat (128 + 143)]))[ch]? = some d ∧ d ≤ d') ∨
      (∃ d : Nat, (wotsDigits 16 (List.replicate 31 7 ++ [UInt8.ofNat (128 + 112)]))[ch]? = some d ∧ d ≤ d') := by
    intro ch d' h
    have hlt : ch < 67 := by
      have := (List.getElem?_eq_some_iff.mp h).1
      simpa [wotsDigits, show len1 16 = 64 by decide, show len2 16 = 3 by decide] using this
    have key : ∀ ch < 67, ((wotsDigits 16 (List.replicate 31 7 ++ [UInt8.ofNat (128 + 143)])).getD ch 0 ≤
        (wotsDigits 16 (List.replicate 31 7 ++ [UInt8.ofNat (128 + 158)])).getD ch 0 ∧
          ch < (wotsDigits 16 (List.replicate 31 7 ++ [UInt8.ofNat (128 + 143)])).length) ∨
        ((wotsDigits 16 (List.replicate 31 7 ++ [UInt8.ofNat (128 + 112)])).getD ch 0 ≤
        (wotsDigits 16 (List.replicate 31 7 ++ [UInt8.ofNat (128 + 158)])).getD ch 0 ∧
          ch < (wotsDigits 16 (List.replicate 31 7 ++ [UInt8.ofNat (128 + 112)])).length) := by decide +kernel
    have hd : (wotsDigits 16 (List.replicate 31 7 ++ [UInt8.ofNat (128 + 158)])).getD ch 0 = d' := by
      rw [List.getD_eq_getElem?_getD, h]; rfl
    rcases key ch hlt with ⟨k1, k2⟩ | ⟨k1, k2⟩
    · left; refine ⟨_, List.getElem?_eq_getElem k2, ?_⟩
      rw [List.getD_eq_getElem?_getD, List.getElem?_eq_getElem k2, hd] at k1; exact k1
    · right; refine ⟨_, List.getElem?_eq_getElem k2, ?_⟩
      rw [List.getD_eq_getElem?_getD, List.getElem?_eq_getElem k2, hd] at k1; exact k1
  intro ch d' h
  rw [toy_positions S hS 16 root s1 hroot h1] at h
  rcases hcov ch d' h with ⟨d, k1, k2⟩ | ⟨d, k1, k2⟩
  · exact ⟨_, List.mem_cons_self .., d, by rw [toy_positions S hS 16 root _ hroot h1]; exact k1, k2⟩
  · exact ⟨_, List.mem_cons_of_mem _ (List.mem_cons_self ..), d, by rw [toy_positions S hS 16 root _ hroot h2]; exact k1, k2⟩

/-- A forgery from beginning to end with such a hash: sign 143 zero bytes, call `initialize_tree(16)`, sign 112 zero bytes;
anyone has a signature of 158 zero bytes, and of no message from the first signature alone. -/
theorem reuse_demo (S : Sha256) (hS : ∀ b, S.hash b = List.replicate 31 7 ++ [UInt8.ofNat b.length]) (seed : Bytes)
    (height : UInt8) (af : Nat) (o0 : XmssFast) (hnew : XmssFast.new S seed height (HashFn.toNat .sha2_256) af = ok o0) :
    ∃ pk s1 s2 o, o0.getPK = ok pk ∧
      runFull S o0 [.basic (.sign (List.replicate 143 0)), .initializeTree 16, .basic (.sign (List.replicate 112 0))] =
        some ([some (.sig s1), none, some (.sig s2)], o) ∧
      verify S (List.replicate 158 0) (spliceForward (HashFn.prim S .sha2_256) 16 (keyRoot pk) (keySeed pk)
        [(List.replicate 143 0, s1), (List.replicate 112 0, s2)] (List.replicate 158 0) s1) pk 16 = ok true ∧
      ¬ Covered (HashFn.prim S .sha2_256) 16 (keyRoot pk) [(List.replicate 143 0, s1)] (List.replicate 158 0) s1 := by
  obtain ⟨o, e, _⟩ := C44_full_refines S seed height .sha2_256 af o0 hnew
    [.basic (.sign (List.replicate 143 0)), .initializeTree 16, .basic (.sign (List.replicate 112 0))]
    (by intro w hw; simp at hw; omega)
  have hp2 : 0 < 2 ^ height.toNat := Nat.two_pow_pos _
  simp only [fullRun, fullCall, counterCall, hp2, if_true] at e
  have hpair : ∀ x, x ∈ [(List.replicate 143 (0 : UInt8), seedSignature S .sha2_256 16 height.toNat seed 0 (List.replicate 143 0)),
      (List.replicate 112 0, seedSignature S .sha2_256 16 height.toNat seed 0 (List.replicate 112 0))] →
      x ∈ fullPairs [.basic (.sign (List.replicate 143 0)), .initializeTree 16, .basic (.sign (List.replicate 112 0))]
        [some (.sig (seedSignature S .sha2_256 16 height.toNat seed 0 (List.replicate 143 0))), none,
          some (.sig (seedSignature S .sha2_256 16 height.toNat seed 0 (List.replicate 112 0)))] ∧
      sigIndex x.2 = sigIndex (seedSignature S .sha2_256 16 height.toNat seed 0 (List.replicate 143 0)) := by
    have hix : ∀ m, sigIndex (seedSignature S .sha2_256 16 height.toNat seed 0 m) = 0 := fun m =>
      sigIndex_signature S .sha2_256 16 _ _ _ _ 0 m (by omega)
    intro x hx
    rcases List.mem_cons.mp hx with rfl | hx
    · exact ⟨by simp [fullPairs], rfl⟩
    · obtain rfl := List.mem_singleton.mp hx
      exact ⟨by simp [fullPairs], by rw [hix, hix]⟩
  obtain ⟨hs, hg, f, hf1, hf2, rfl, e2, e3, e4, p, k, q, hp, e5, HH⟩ := fast_fresh hnew
  rw [ofNat?_toNat] at hf2
  cases hf2
  obtain ⟨f1, f2, f3, f4, f5⟩ := pk_fields (keyOf S .sha2_256 16 o0.height.toNat (lenW_pos (by omega)) seed) o0.toXmssBase
    .sha2_256 e2 hg
  have hpk := getPK_eq _ o0.toXmssBase 0 HH.hsk
  have hroot : (keyRoot (o0.getDescriptorBytes ++ (keyOf S .sha2_256 16 o0.height.toNat (lenW_pos (by omega)) seed).root ++
      (keyOf S .sha2_256 16 o0.height.toNat (lenW_pos (by omega)) seed).ps)).length = 32 := by
    rw [f4]; exact KeyParts.l4 _
  have hlen : ∀ m, 36 ≤ (seedSignature S .sha2_256 16 o0.height.toNat seed 0 m).length := by
    intro m
    have := length_signature S .sha2_256 HH.hp HH.hlen o0.height.toNat ((shake256 96 seed).take 32)
      (((shake256 96 seed).drop 32).take 32) ((shake256 96 seed).drop 64) 0 m
    rw [seedSignature, this]; omega
  generalize hpkg : o0.getDescriptorBytes ++ (keyOf S .sha2_256 16 o0.height.toNat (lenW_pos (by omega)) seed).root ++
      (keyOf S .sha2_256 16 o0.height.toNat (lenW_pos (by omega)) seed).ps = pk at hpk hroot
  have hpos : ∀ n m, positionsUnder (HashFn.prim S .sha2_256) 16 (keyRoot pk) (List.replicate n 0)
      (seedSignature S .sha2_256 16 o0.height.toNat seed 0 m) = wotsDigits 16 (List.replicate 31 7 ++ [UInt8.ofNat (128 + n)]) :=
    fun n m => toy_positions S hS 16 _ _ hroot (hlen m) n
  refine ⟨pk, _, _, o, hpk, e, ?_, ?_⟩
  · refine C70_fast_forgery S seed o0.height .sha2_256 af o0 hnew pk hpk _ (by intro w hw; simpa using hw) _ o e _ _
      (hpair _ (List.mem_cons_self ..)).1 _ hpair _ ?_
    exact toy_covered S hS _ _ _ hroot (hlen _) (hlen _)
  · intro hc
    have h63 : (wotsDigits 16 (List.replicate 31 7 ++ [UInt8.ofNat (128 + 158)]))[63]? = some 14 := by decide +kernel
    obtain ⟨x, hx, d, k1, k2⟩ := hc 63 14 (by rw [hpos]; exact h63)
    obtain rfl := List.mem_singleton.mp hx
    rw [hpos, show (wotsDigits 16 (List.replicate 31 7 ++ [UInt8.ofNat (128 + 143)]))[63]? = some 15 by decide +kernel] at k1
    cases k1
    omega

example : ∃ o0 pk s1 s2 o, XmssFast.new toySha zeroSeed 4 0 0 = ok o0 ∧ o0.getPK = ok pk ∧
    runFull toySha o0 [.basic (.sign (List.replicate 143 0)), .initializeTree 16, .basic (.sign (List.replicate 112 0))] =
      some ([some (.sig s1), none, some (.sig s2)], o) ∧
    verify toySha (List.replicate 158 0) (spliceForward (HashFn.prim toySha .sha2_256) 16 (keyRoot pk) (keySeed pk)
      [(List.replicate 143 0, s1), (List.replicate 112 0, s2)] (List.replicate 158 0) s1) pk 16 = ok true := by
  obtain ⟨o0, h⟩ := (C39_fast_succeeds toySha zeroSeed 4 (HashFn.toNat .sha2_256) 0).mpr ⟨rfl, goodHeight4, by decide⟩
  obtain ⟨pk, s1, s2, o, h1, h2, h3, _⟩ := reuse_demo toySha (fun _ => rfl) zeroSeed 4 0 o0 h
  exact ⟨o0, pk, s1, s2, o, h, h1, h2, h3⟩

end Qrl.Props
