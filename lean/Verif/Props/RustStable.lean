import Verif.Props.RustAnyW
import Verif.Props.RustReinit
/-!
# C87: a Rust signer stays the same wallet

What the getters of a Rust signer report after any history of calls.
-/

namespace Qrl.Props

open Spec

theorem rs_same_getters {o o' : Rs.XMSSBase} (h1 : o.hashFunction = o'.hashFunction) (h2 : o.height = o'.height)
    (h3 : o.sk.drop 4 = o'.sk.drop 4) (hl : o.sk.length = 132) (hl' : o'.sk.length = 132) (S : Sha256) :
    o.getSkSeed = o'.getSkSeed ∧ o.getSkPrf = o'.getSkPrf ∧ o.getPkSeed = o'.getPkSeed ∧ o.getRoot = o'.getRoot ∧
    o.getPk = o'.getPk ∧ o.getAddress S = o'.getAddress S := by
  have sl : ∀ a, 4 ≤ a → a + 32 ≤ 132 → Rs.slice o.sk a 32 = Rs.slice o'.sk a 32 := by
    intro a ha hb
    rw [Rs.slice, Rs.slice, hl, hl', if_pos hb, if_pos hb]
    have e : ∀ s : Bytes, s.drop a = (s.drop 4).drop (a - 4) := by
      intro s
      rw [List.drop_drop]
      congr 1
      omega
    rw [e, e o'.sk, h3]
  have g3 : o.getPkSeed = o'.getPkSeed := sl 68 (by omega) (by omega)
  have g4 : o.getRoot = o'.getRoot := sl 100 (by omega) (by omega)
  have hd : o.getDescriptorBytes = o'.getDescriptorBytes := by
    rw [Rs.XMSSBase.getDescriptorBytes, Rs.XMSSBase.getDescriptorBytes, h1, h2]
  have g5 : o.getPk = o'.getPk := by rw [Rs.XMSSBase.getPk, Rs.XMSSBase.getPk, g3, g4, hd]
  refine ⟨sl 4 (by omega) (by omega), sl 36 (by omega) (by omega), g3, g4, g5, ?_⟩
  rw [Rs.XMSSBase.getAddress, Rs.XMSSBase.getAddress, g5]

/-- C87. After any history of `set_index`, `sign` and `initialize_tree(w')`, in both build modes, a Rust `XMSSFast` has the hash function,
height, seed and extended seed it was created with, the secret seeds and the public seed too; and its root, public key and address are those of
a new object with the parameter of the last `initialize_tree` (or of the constructor, if there was none). -/
theorem C87_fast_stable (b : Rs.Build) (S : Sha256) (seed : Bytes) (height : UInt8) (hf : HashFn) (w : Nat)
    (hw : RangeW w) (hs : seed.length = 48) (hh : GoodHeight height) (o0 : Rs.XMSSFast) (hnew : Rs.XMSSFast.new b S seed height hf w = .ok o0)
    (cs : List FullCall) (hcs : RangeWs cs) (rs : List FullReply) (o : Rs.XMSSFast) (hrun : Rs.runFull b S o0 cs = some (rs, o)) :
    o.hashFunction = hf ∧ o.height = height ∧ o.seed = seed ∧ o.sk.length = 132 ∧ o.getExtendedSeed = o0.getExtendedSeed ∧
    o.getSkSeed = o0.getSkSeed ∧ o.getSkPrf = o0.getSkPrf ∧ o.getPkSeed = o0.getPkSeed ∧
    ∃ o1, Rs.XMSSFast.new b S seed height hf (paramAfter w cs) = .ok o1 ∧ o.sk.drop 4 = o1.sk.drop 4 ∧ o.getRoot = o1.getRoot ∧
      o.getPk = o1.getPk ∧ o.getAddress S = o1.getAddress S := by
  obtain ⟨i, hcan⟩ := rsCanonW_reach hs hh hw hnew hcs hrun
  have hw' := paramAfter_range hw hcs
  obtain ⟨o1, h1, hcan1⟩ := rsCanonW_new b S seed height hf (paramAfter w cs) hw' hs hh
  obtain ⟨o0', h0, hcan0⟩ := rsCanonW_new b S seed height hf w hw hs hh
  rw [hnew] at h0
  cases h0
  have fields : ∀ {w i o}, RsCanonW S hf seed height w i o → o.hashFunction = hf ∧ o.height = height ∧ o.seed = seed ∧ o.sk.length = 132 ∧
      ∃ hw : RangeW w, o.sk = (keyP S hf w (rustLen w) height.toNat (Rs.rustLen_pos hw) seed).sk i := by
    intro w i o h
    obtain ⟨hw, o1, H, rfl, rfl, rfl, hi, rfl⟩ := h
    exact ⟨rfl, rfl, rfl, KeyParts.length_sk _ _, hw, rfl⟩
  obtain ⟨a1, a2, a3, a4, ha, a5⟩ := fields hcan
  obtain ⟨b1, b2, b3, b4, hb, b5⟩ := fields hcan1
  obtain ⟨c1, c2, c3, c4, hc, c5⟩ := fields hcan0
  have hdrop : o.sk.drop 4 = o1.sk.drop 4 := by rw [a5, b5, KeyParts.drop4, KeyParts.drop4]
  obtain ⟨-, -, -, g4, g5, g6⟩ := rs_same_getters (a1.trans b1.symm) (a2.trans b2.symm) hdrop a4 b4 S
  have cut : ∀ a, 4 ≤ a → a + 32 ≤ 100 → Rs.slice o.sk a 32 = Rs.slice o0.sk a 32 := by
    intro a h4 h100
    rw [Rs.slice, Rs.slice, a4, c4, if_pos (by omega), if_pos (by omega)]
    have e : ∀ s : Bytes, (s.drop a).take 32 = ((((s.drop 4).take 96)).drop (a - 4)).take 32 := by
      intro s
      rw [List.drop_take, List.drop_drop, List.take_take, show 4 + (a - 4) = a by omega, Nat.min_eq_left (by omega)]
    rw [e, e o0.sk]
    congr 3
    rw [a5, c5, KeyParts.drop4, KeyParts.drop4]
    simp only [List.append_assoc]
    rfl
  refine ⟨a1, a2, a3, a4, ?_, cut 4 (by omega) (by omega), cut 36 (by omega) (by omega), cut 68 (by omega) (by omega), o1, h1, hdrop, g4, g5, g6⟩
  rw [Rs.XMSSBase.getExtendedSeed, Rs.XMSSBase.getExtendedSeed, Rs.XMSSBase.getDescriptorBytes, Rs.XMSSBase.getDescriptorBytes, a1, a2, a3, c1, c2, c3]

theorem paramAfter_basic (w : Nat) (cs : List Call) : paramAfter w (cs.map .basic) = w := by
  induction cs with
  | nil => rfl
  | cons c cs ih => exact ih

theorem rs_runFull_basic (b : Rs.Build) (S : Sha256) (cs : List Call) : ∀ (o0 o : Rs.XMSSFast) (rs : List Reply),
    runCalls (Rs.XMSSFast.call b S) o0 cs = some (rs, o) → Rs.runFull b S o0 (cs.map .basic) = some (rs.map some, o) := by
  induction cs with
  | nil => intro o0 o rs h; cases h; rfl
  | cons c cs ih =>
    intro o0 o rs h
    rw [runCalls] at h
    split at h
    · cases h
    · rename_i r o' hc
      split at h
      · cases h
      · rename_i rs' o'' hr
        cases h
        rw [List.map_cons, Rs.runFull, Rs.XMSSFast.fullCall, hc]
        dsimp only
        rw [ih o' o rs' hr]
        rfl

/-- C87. Without `initialize_tree` nothing but the index changes: over any history of `set_index` and `sign` every getter but the index and
the number of remaining signatures reports what it reported at the start. -/
theorem C87_fast_calls (b : Rs.Build) (S : Sha256) (seed : Bytes) (height : UInt8) (hf : HashFn) (w : Nat)
    (hw : RangeW w) (hs : seed.length = 48) (hh : GoodHeight height) (o0 : Rs.XMSSFast) (hnew : Rs.XMSSFast.new b S seed height hf w = .ok o0)
    (cs : List Call) (rs : List Reply) (o : Rs.XMSSFast) (hrun : runCalls (Rs.XMSSFast.call b S) o0 cs = some (rs, o)) :
    o.hashFunction = o0.hashFunction ∧ o.height = o0.height ∧ o.seed = o0.seed ∧ o.sk.length = 132 ∧ o.sk.drop 4 = o0.sk.drop 4 ∧
    o.getExtendedSeed = o0.getExtendedSeed ∧ o.getSkSeed = o0.getSkSeed ∧ o.getSkPrf = o0.getSkPrf ∧ o.getPkSeed = o0.getPkSeed ∧
    o.getRoot = o0.getRoot ∧ o.getPk = o0.getPk ∧ o.getAddress S = o0.getAddress S := by
  have hno : ∀ cs : List Call, RangeWs (cs.map .basic) := by
    intro cs w h
    obtain ⟨c, _, h⟩ := List.mem_map.mp h
    cases h
  obtain ⟨a1, a2, a3, a4, a5, a6, a7, a8, o1, e1, e2, e3, e4, e5⟩ :=
    C87_fast_stable b S seed height hf w hw hs hh o0 hnew _ (hno cs) _ o (rs_runFull_basic b S cs o0 o rs hrun)
  rw [paramAfter_basic, hnew] at e1
  cases e1
  obtain ⟨b1, b2, b3, -⟩ := C87_fast_stable b S seed height hf w hw hs hh o0 hnew [] (hno []) [] o0 rfl
  exact ⟨a1.trans b1.symm, a2.trans b2.symm, a3.trans b3.symm, a4, e2, a5, a6, a7, a8, e3, e4, e5⟩

theorem rs_setIndex_sk {o : Rs.XMSSBase} {n i : Nat} {o' : Rs.XMSSBase} (h : o.setIndex n = .ok (i, o')) :
    o' = { o with sk := o'.sk } ∧ o'.sk.length = o.sk.length ∧ o'.sk.drop 4 = o.sk.drop 4 := by
  rw [Rs.XMSSBase.setIndex] at h
  obtain ⟨s1, e1, h⟩ := Rs.Res.bind_eq_ok.mp h
  obtain ⟨s2, e2, h⟩ := Rs.Res.bind_eq_ok.mp h
  obtain ⟨s3, e3, h⟩ := Rs.Res.bind_eq_ok.mp h
  obtain ⟨s4, e4, h⟩ := Rs.Res.bind_eq_ok.mp h
  obtain ⟨j, -, h⟩ := Rs.Res.bind_eq_ok.mp h
  cases h
  have wr : ∀ {l l' : Bytes} {i : Nat} {x : UInt8}, i < 4 → Rs.wr l i x = .ok l' → l'.length = l.length ∧ l'.drop 4 = l.drop 4 := by
    intro l l' i x hi h
    rw [Rs.wr] at h
    split at h
    · cases h
      rw [List.length_set, List.drop_set]
      rw [if_pos hi]
      exact ⟨rfl, rfl⟩
    · cases h
  obtain ⟨a1, d1⟩ := wr (by omega) e1
  obtain ⟨a2, d2⟩ := wr (by omega) e2
  obtain ⟨a3, d3⟩ := wr (by omega) e3
  obtain ⟨a4, d4⟩ := wr (by omega) e4
  exact ⟨rfl, by show s4.length = _; omega, by show s4.drop 4 = _; rw [d4, d3, d2, d1]⟩

/-- C87. **Every** Rust `XMSSBasic` object, over every history of `set_index` and `sign` calls that does not panic, keeps its hash function,
height, seed and parameters and all of its secret key but the index; so every getter but the index reports what it reported at the start. -/
theorem C87_basic_stable (b : Rs.Build) (S : Sha256) (cs : List Call) (o0 : Rs.XMSSBasic) (hl : o0.sk.length = 132)
    (rs : List Reply) (o : Rs.XMSSBasic) (hrun : runCalls (Rs.XMSSBasic.call b S) o0 cs = some (rs, o)) :
    o = { o0 with sk := o.sk } ∧ o.sk.length = 132 ∧ o.sk.drop 4 = o0.sk.drop 4 ∧ o.getExtendedSeed = o0.getExtendedSeed ∧
    o.getSkSeed = o0.getSkSeed ∧ o.getSkPrf = o0.getSkPrf ∧ o.getPkSeed = o0.getPkSeed ∧ o.getRoot = o0.getRoot ∧
    o.getPk = o0.getPk ∧ o.getAddress S = o0.getAddress S := by
  have one : ∀ (c : Call) (o0 o : Rs.XMSSBasic) (r : Reply), o0.sk.length = 132 → Rs.XMSSBasic.call b S o0 c = some (r, o) →
      o = { o0 with sk := o.sk } ∧ o.sk.length = 132 ∧ o.sk.drop 4 = o0.sk.drop 4 := by
    intro c o0 o r hl h
    cases c with
    | setIndex n =>
      rw [Rs.XMSSBasic.call] at h
      split at h
      · rename_i i base hb
        cases h
        obtain ⟨e1, e2, e3⟩ := rs_setIndex_sk hb
        exact ⟨by conv_lhs => rw [e1], e2.trans hl, e3⟩
      · cases h; exact ⟨rfl, hl, rfl⟩
      · cases h
    | sign m =>
      rw [Rs.XMSSBasic.call] at h
      split at h
      · rename_i s o' hs
        cases h
        rw [Rs.XMSSBasic.sign] at hs
        obtain ⟨⟨sk, data⟩, e1, hs⟩ := Rs.Res.bind_eq_ok.mp hs
        obtain ⟨sig, -, hs⟩ := Rs.Res.bind_eq_ok.mp hs
        cases hs
        refine ⟨rfl, ?_⟩
        rw [Rs.xmssSignMsg] at e1
        obtain ⟨idx, -, e1⟩ := Rs.Res.bind_eq_ok.mp e1
        obtain ⟨_, -, e1⟩ := Rs.Res.bind_eq_ok.mp e1
        obtain ⟨_, -, e1⟩ := Rs.Res.bind_eq_ok.mp e1
        obtain ⟨_, -, e1⟩ := Rs.Res.bind_eq_ok.mp e1
        obtain ⟨nx, -, e1⟩ := Rs.Res.bind_eq_ok.mp e1
        dsimp only at e1
        obtain ⟨_, -, e1⟩ := Rs.Res.bind_eq_ok.mp e1
        obtain ⟨_, -, e1⟩ := Rs.Res.bind_eq_ok.mp e1
        obtain ⟨_, -, e1⟩ := Rs.Res.bind_eq_ok.mp e1
        obtain ⟨_, -, e1⟩ := Rs.Res.bind_eq_ok.mp e1
        cases e1
        constructor
        · show (Rs.idxBytes nx ++ o0.sk.drop 4).length = 132
          rw [List.length_append, List.length_drop, hl]; rfl
        · rfl
      · cases h; exact ⟨rfl, hl, rfl⟩
      · cases h
  have all : ∀ (cs : List Call) (o0 : Rs.XMSSBasic), o0.sk.length = 132 → ∀ rs o, runCalls (Rs.XMSSBasic.call b S) o0 cs = some (rs, o) →
      o = { o0 with sk := o.sk } ∧ o.sk.length = 132 ∧ o.sk.drop 4 = o0.sk.drop 4 := by
    intro cs
    induction cs with
    | nil => intro o0 hl rs o h; cases h; exact ⟨rfl, hl, rfl⟩
    | cons c cs ih =>
      intro o0 hl rs o h
      rw [runCalls] at h
      split at h
      · cases h
      · rename_i r o' hc
        split at h
        · cases h
        · rename_i rs' o'' hr
          cases h
          obtain ⟨a1, a2, a3⟩ := one c o0 o' r hl hc
          obtain ⟨b1, b2, b3⟩ := ih o' a2 rs' o hr
          refine ⟨?_, b2, b3.trans a3⟩
          rw [a1] at b1
          exact b1
  obtain ⟨h1, h2, h3⟩ := all cs o0 hl rs o hrun
  have e1 : o.hashFunction = o0.hashFunction := by rw [h1]
  have e2 : o.height = o0.height := by rw [h1]
  have e3 : o.seed = o0.seed := by rw [h1]
  obtain ⟨g1, g2, g3, g4, g5, g6⟩ := rs_same_getters e1 e2 h3 h2 hl S
  refine ⟨h1, h2, h3, ?_, g1, g2, g3, g4, g5, g6⟩
  rw [Rs.XMSSBase.getExtendedSeed, Rs.XMSSBase.getExtendedSeed, Rs.XMSSBase.getDescriptorBytes, Rs.XMSSBase.getDescriptorBytes, e1, e2, e3]

/-- A history on which an object signs, builds its tree again and signs, and what stays. -/
example : ∃ o0 rs o, Rs.XMSSFast.new .debug toySha zeroSeed 4 .shake_128 16 = .ok o0 ∧
    Rs.runFull .debug toySha o0 [.basic (.sign [1]), .initializeTree 16, .basic (.sign [2])] = some (rs, o) ∧
    o.getExtendedSeed = o0.getExtendedSeed ∧ o.getPk = o0.getPk := by
  obtain ⟨o0, _, h, _⟩ := C51_fast_same_key .debug toySha zeroSeed 4 .shake_128 rfl goodHeight4
  obtain ⟨o, h1, _⟩ := C60_rewind_refuted .debug toySha zeroSeed 4 .shake_128 16 (by omega) rfl goodHeight4 o0 h [1] [2]
    (by simp [rustShort, rustRoom]) (by simp [rustShort, rustRoom])
  obtain ⟨-, -, -, -, e, -, -, -, o1, h2, -, -, e', -⟩ := C87_fast_stable .debug toySha zeroSeed 4 .shake_128 16 ⟨by omega, by omega⟩ rfl goodHeight4
    o0 h _ (by
      intro w hw
      simp only [List.mem_cons, FullCall.initializeTree.injEq, List.not_mem_nil, or_false, reduceCtorEq, false_or] at hw
      subst hw
      exact ⟨by omega, by omega⟩) _ o h1
  rw [show paramAfter 16 [.basic (.sign [1]), .initializeTree 16, .basic (.sign [2])] = 16 from rfl, h] at h2
  cases h2
  exact ⟨o0, _, o, h, h1, e, e'⟩

/-- A simple signer whose index is moved. -/
example : ∃ o0 rs o, Rs.XMSSBasic.new .debug toySha zeroSeed 4 .shake_128 16 = .ok o0 ∧
    runCalls (Rs.XMSSBasic.call .debug toySha) o0 [.setIndex 7, .setIndex 2] = some (rs, o) ∧ o.getPk = o0.getPk := by
  obtain ⟨o0, c, h, -, hk, hl, -⟩ := C51_basic_same_key .debug toySha zeroSeed 4 .shake_128 16 (by omega) rfl goodHeight4
  have hl0 : o0.sk.length = 132 := by rw [hk.1]; exact hl
  have hset : ∀ (o : Rs.XMSSBase) (n : Nat), o.sk.length = 132 → ∃ i o', o.setIndex n = .ok (i, o') := by
    intro o n hl
    match hsk : o.sk, hl with
    | b0 :: b1 :: b2 :: b3 :: rest, _ =>
      rw [Rs.XMSSBase.setIndex, hsk]
      exact ⟨_, _, rfl⟩
  obtain ⟨i, o1, h1⟩ := hset o0.toXMSSBase 7 hl0
  obtain ⟨j, o2, h2⟩ := hset o1 2 ((rs_setIndex_sk h1).2.1.trans hl0)
  have hrun : runCalls (Rs.XMSSBasic.call .debug toySha) o0 [.setIndex 7, .setIndex 2] =
      some ([.index i, .index j], { o0 with toXMSSBase := o2 }) := by
    rw [runCalls, Rs.XMSSBasic.call, show (7 : UInt32).toNat = 7 from rfl, h1]
    dsimp only
    rw [runCalls, Rs.XMSSBasic.call, show (2 : UInt32).toNat = 2 from rfl]
    dsimp only
    rw [h2]
    rfl
  exact ⟨o0, _, _, h, hrun, (C87_basic_stable .debug toySha _ o0 hl0 _ _ hrun).2.2.2.2.2.2.2.2.1⟩

end Qrl.Props
