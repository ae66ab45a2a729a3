import Verif.Proof.Lifetime
import Verif.Props.ReinitAny
import Verif.Props.Copy
/-!
# C68: moving, copying and destroying `XmssFast` objects
-/

namespace Qrl.Props

open Outcome Spec

/-- C68. Every program that constructs, copies, moves, assigns, destroys and calls `XmssFast` objects, in any order, behaves as
if every object were a value of its own, as long as `sign` and `setIndex` are only called on whole objects: those that were
constructed directly or by moving from a whole object, or last assigned by moving a whole object, and have not been assigned
by copying or moved from since, or on which `initialize_tree` has been called since. The replies are the same, nothing is undefined, and the base members
(hence index, keys and address) of every live object are those of its value. -/
theorem C68_value_semantics (S : Sha256) (ops : List FastOp) (rs : List OpReply) (W : List (Option ValueObj))
    (h : valueRun S [] ops = some (rs, W)) :
    ∃ m, FastMem.run S ⟨[], []⟩ ops = some (rs, m) ∧
      ∀ (a : Nat) x, W[a]? = some (some x) → ∃ o, m.objs[a]? = some (some o) ∧ o.base = x.value.toXmssBase := by
  obtain ⟨m, e, hr⟩ := mem_run ops memRel_empty h
  refine ⟨m, e, fun a x hx => ?_⟩
  obtain ⟨o, h1, h2⟩ := hr.find hx
  exact ⟨o, h1, h2.base⟩

theorem valueRun_append (S : Sha256) (ops1 ops2 : List FastOp) : ∀ {W W1 W2 : List (Option ValueObj)} {rs1 rs2 : List OpReply},
    valueRun S W ops1 = some (rs1, W1) → valueRun S W1 ops2 = some (rs2, W2) →
    valueRun S W (ops1 ++ ops2) = some (rs1 ++ rs2, W2) := by
  induction ops1 with
  | nil => intro W W1 W2 rs1 rs2 h1 h2; cases h1; exact h2
  | cons op ops ih =>
    intro W W1 W2 rs1 rs2 h1 h2
    rw [valueRun] at h1
    cases hs : valueStep S W op with
    | none => rw [hs] at h1; cases h1
    | some x =>
      obtain ⟨r, W'⟩ := x
      rw [hs] at h1
      simp only at h1
      cases hr : valueRun S W' ops with
      | none => rw [hr] at h1; cases h1
      | some y =>
        obtain ⟨rs', W''⟩ := y
        rw [hr] at h1
        cases h1
        rw [List.cons_append, valueRun, hs]
        simp only [ih hr h2, List.cons_append]

theorem memRun_append (S : Sha256) (ops1 ops2 : List FastOp) : ∀ {m m1 : FastMem} {rs1 : List OpReply},
    m.run S ops1 = some (rs1, m1) → m.run S (ops1 ++ ops2) = (m1.run S ops2).map fun x => (rs1 ++ x.1, x.2) := by
  induction ops1 with
  | nil =>
    intro m m1 rs1 h1; cases h1
    rw [List.nil_append]
    cases FastMem.run S m ops2 <;> rfl
  | cons op ops ih =>
    intro m m1 rs1 h1
    rw [FastMem.run] at h1
    cases hs : m.step S op with
    | none => rw [hs] at h1; cases h1
    | some x =>
      obtain ⟨r, m'⟩ := x
      rw [hs] at h1
      simp only at h1
      cases hr : m'.run S ops with
      | none => rw [hr] at h1; cases h1
      | some y =>
        obtain ⟨rs', m''⟩ := y
        rw [hr] at h1
        cases h1
        rw [List.cons_append, FastMem.run, hs]
        simp only [ih hr]
        cases m1.run S ops2 <;> rfl

/-- A history on one whole object. -/
theorem valueRun_calls (S : Sha256) (a : Nat) (cs : List FullCall) : ∀ (W : List (Option ValueObj)) (v v' : XmssFast)
    (rs : List FullReply), W[a]? = some (some ⟨v, true⟩) → runFull S v cs = some (rs, v') →
    valueRun S W (cs.map (.call a)) = some (rs.map .reply, W.set a (some ⟨v', true⟩)) := by
  induction cs with
  | nil =>
    intro W v v' rs hW h
    cases h
    obtain ⟨hlt, he⟩ := List.getElem?_eq_some_iff.mp hW
    rw [← he, List.set_getElem_self]
    rfl
  | cons c cs ih =>
    intro W v v' rs hW h
    rw [runFull] at h
    cases hc : v.fullCall S c with
    | none => rw [hc] at h; cases h
    | some x =>
      obtain ⟨r, v1⟩ := x
      rw [hc] at h
      simp only at h
      cases hr : runFull S v1 cs with
      | none => rw [hr] at h; cases h
      | some y =>
        obtain ⟨rs1, v2⟩ := y
        rw [hr] at h
        cases h
        have hlt := (List.getElem?_eq_some_iff.mp hW).1
        rw [List.map_cons, valueRun, valueStep, hW]
        simp only [hc]
        rw [ih (W.set a (some ⟨v1, true⟩)) v1 v' rs1 (List.getElem?_set_self hlt) hr, List.set_set]
        rfl

theorem runFull_append (S : Sha256) (cs cs' : List FullCall) : ∀ {o o1 o2 : XmssFast} {rs rs' : List FullReply},
    runFull S o cs = some (rs, o1) → runFull S o1 cs' = some (rs', o2) → runFull S o (cs ++ cs') = some (rs ++ rs', o2) := by
  induction cs with
  | nil => intro o o1 o2 rs rs' h1 h2; cases h1; exact h2
  | cons c cs ih =>
    intro o o1 o2 rs rs' h1 h2
    rw [runFull] at h1
    cases hc : o.fullCall S c with
    | none => rw [hc] at h1; cases h1
    | some x =>
      obtain ⟨r, v1⟩ := x
      rw [hc] at h1
      simp only at h1
      cases hr : runFull S v1 cs with
      | none => rw [hr] at h1; cases h1
      | some y =>
        obtain ⟨rs1, v2⟩ := y
        rw [hr] at h1
        cases h1
        rw [List.cons_append, runFull, hc]
        simp only [ih hr h2, List.cons_append]

/-- C68. Moving is safe: construct an object, use it, move it into a new object, destroy the old one, and go on with the
new one. The replies are those of one object used throughout. -/
theorem C68_move_safe (S : Sha256) (seed : Bytes) (height : UInt8) (hf af : Nat) (o0 o1 o2 : XmssFast)
    (hnew : XmssFast.new S seed height hf af = ok o0) (cs cs' : List FullCall) (rs rs' : List FullReply)
    (h1 : runFull S o0 cs = some (rs, o1)) (h2 : runFull S o1 cs' = some (rs', o2)) :
    runFull S o0 (cs ++ cs') = some (rs ++ rs', o2) ∧
    ∃ m, FastMem.run S ⟨[], []⟩ (.create seed height hf af :: cs.map (.call 0) ++ [.move 0, .destroy 0] ++ cs'.map (.call 1)) =
      some (.made 0 :: rs.map .reply ++ [.made 1, .done] ++ rs'.map .reply, m) := by
  refine ⟨runFull_append S cs cs' h1 h2, ?_⟩
  have a1 : valueRun S [] [.create seed height hf af] = some ([.made 0], [some ⟨o0, true⟩]) := by
    simp [valueRun, valueStep, hnew]
  have a2 := valueRun_calls S 0 cs [some ⟨o0, true⟩] o0 o1 rs rfl h1
  have a3 : valueRun S [some ⟨o1, true⟩] [.move 0, .destroy 0] = some ([.made 1, .done], [none, some ⟨o1, true⟩]) := rfl
  have a4 := valueRun_calls S 1 cs' [none, some ⟨o1, true⟩] o1 o2 rs' rfl h2
  have := valueRun_append S _ _ (valueRun_append S _ _ (valueRun_append S _ _ a1 a2) a3) a4
  obtain ⟨m, e, _⟩ := C68_value_semantics S _ _ _ this
  exact ⟨m, e⟩

/-- The state an object sees through dangling pointers cannot be signed with. -/
theorem sign_freed {S : Sha256} {hf : HashFn} {w : Nat} {K : KeyParts} {p : WotsParams} {o0 : XmssFast}
    (H : FastAny S hf w K p o0) (i : Nat) (hi : i < 2 ^ o0.height.toNat) (a b : Nat) (msg : Bytes) :
    XmssFast.sign S { fastAt S hf K o0 i with state := Bufs.freed.state a b } msg = .ub := by
  have hlt := H.pow_lt
  have h4 := H.hh.1
  have h30 := H.hh.2.1
  obtain ⟨n, hn⟩ := H.size _ i rfl
  have e6 : o0.params.h = o0.height.toNat := by rw [H.hop]
  have e7 : o0.params.wots = p := by rw [H.hop]
  have hof : HashFn.ofNat? o0.hashFunction = some hf := by rw [H.hof, ofNat?_toNat]
  rw [XmssFast.sign]
  have g1 : XmssBase.getSignatureSize (XmssFast.toXmssBase { fastAt S hf K o0 i with state := Bufs.freed.state a b })
      o0.params.wots.w = ok n := hn
  have g2 : XmssBase.getIndex (XmssFast.toXmssBase { fastAt S hf K o0 i with state := Bufs.freed.state a b }) = ok i :=
    H.getIndex i (by omega)
  have g3 : XmssFast.setIndex S { fastAt S hf K o0 i with state := Bufs.freed.state a b } i =
      .ret i { fastAt S hf K o0 i with state := Bufs.freed.state a b } := by
    rw [XmssFast.setIndex]
    simp only [fastAt, hof, xmssfastUpdate, e6]
    rw [if_neg (by omega), K.idx i (by omega)]
    simp only
    rw [if_neg (by omega), if_neg (by omega)]
    simp only [K.seed_slice, K.ps_slice, ok_bind, Nat.sub_self, advanceLoop, Step.ofOutcome, K.reindex]
  have e2 : (fastAt S hf K o0 i).params.wots.w = o0.params.wots.w := rfl
  simp only [e2, g1, g2, g3]
  have e3 : (fastAt S hf K o0 i).hashFunction = hf.toNat := H.hof
  simp only [e3, withHash_toNat]
  have e4 : (fastAt S hf K o0 i).sk = K.sk i := rfl
  have e5 : (fastAt S hf K o0 i).params = o0.params := rfl
  simp only [xmssfastSignmsg, e4, e5, K.idx i (by omega), K.seed_slice, K.prf_slice, K.ps_slice, ok_bind, K.reindex,
    K.root_slice, prf_eq, toByte_eq_be, hMsg_eq, Adrs.setType, Adrs.setOTS, getSeed_eq]
  rw [e7]
  have hauth : ∀ h, 1 ≤ h → authOut (Bufs.freed.state a b).auth h 0 = ub := by
    intro h hh
    obtain ⟨k, rfl⟩ : ∃ k, h = k + 1 := ⟨h - 1, by omega⟩
    rfl
  by_cases hu : UsableW w
  · obtain ⟨k, q, hp⟩ := anyParams_of H.set hu
    obtain ⟨b', c', d', e⟩ := wotsSign_any S hf hp (Spec.Hmsg (hf.prim S)
          (Spec.PRF (hf.prim S) K.skPrf (Spec.be 32 i) ++ K.root ++ Spec.be 32 i) msg) K.skSeed K.ps i 0 0 0
      (length_Hmsg ..)
    rw [e]
    simp only [ok_bind]
    rw [hauth _ (by omega)]
    rfl
  · rw [wotsSign, (digits_bad H.set (bad_of_not_usable H.set hu) _ _).1]
    · rfl
    · intro h0
      have := congrArg List.length h0
      rw [length_Hmsg] at this
      cases this

/-- Every value of an ideal memory is a reachable object. -/
def AllCanon (S : Sha256) (W : List (Option ValueObj)) : Prop :=
  ∀ (a : Nat) x, W[a]? = some (some x) → ∃ f seed height af w i, seed.length = 48 ∧
    CanonAny S f seed height af w i x.value

theorem canon_fullCall {S : Sha256} {f : HashFn} {seed : Bytes} {height : UInt8} {af w i : Nat} {o o' : XmssFast}
    {r : FullReply} (hs : seed.length = 48) (h : CanonAny S f seed height af w i o) (c : FullCall)
    (hc : o.fullCall S c = some (r, o')) : ∃ w' i', CanonAny S f seed height af w' i' o' := by
  have := canonAny_call hs h c
  split at this
  · rw [hc] at this; cases this
  · rename_i r1 w1 i1 _
    obtain ⟨o1, e, h1⟩ := this
    rw [hc] at e
    cases e
    exact ⟨_, _, h1⟩

theorem allCanon_step {S : Sha256} {W W' : List (Option ValueObj)} {op : FastOp} {r : OpReply} (h : AllCanon S W)
    (hs : valueStep S W op = some (r, W')) : AllCanon S W' := by
  have push : ∀ (W : List (Option ValueObj)) y, AllCanon S W → (∃ f seed height af w i, seed.length = 48 ∧
      CanonAny S f seed height af w i y.value) → AllCanon S (W ++ [some y]) := by
    intro W y hW hy a x hx
    rcases Nat.lt_or_ge a W.length with hl | hl
    · rw [List.getElem?_append_left hl] at hx; exact hW a x hx
    · rw [List.getElem?_append_right hl] at hx
      have : a - W.length = 0 := by
        have := (List.getElem?_eq_some_iff.mp hx).1
        simp at this; omega
      rw [this] at hx
      simp at hx
      rw [← hx]; exact hy
  have upd : ∀ (W : List (Option ValueObj)) (a : Nat) y, AllCanon S W → (∀ z, y = some z → ∃ f seed height af w i,
      seed.length = 48 ∧ CanonAny S f seed height af w i z.value) → AllCanon S (W.set a y) := by
    intro W a y hW hy b x hx
    by_cases e : a = b
    · subst e
      have hl : a < W.length := by
        have := (List.getElem?_eq_some_iff.mp hx).1
        simpa using this
      rw [List.getElem?_set_self hl] at hx
      exact hy x (Option.some.inj hx)
    · rw [List.getElem?_set_ne e] at hx; exact hW b x hx
  cases op with
  | create seed height hf af =>
    rw [valueStep] at hs
    cases hn : XmssFast.new S seed height hf af with
    | ub => rw [hn] at hs; cases hs
    | throw e => rw [hn] at hs; cases hs; exact h
    | ok o =>
      rw [hn] at hs
      cases hs
      obtain ⟨hl, hg, f, hf1, hf2, _⟩ := fast_fresh hn
      subst hf1
      exact push _ _ h ⟨f, seed, height, af, 16, 0, hl, canonAny_fresh hn⟩
  | copy a =>
    rw [valueStep] at hs
    split at hs
    · rename_i x hx
      cases hs
      exact push _ _ h (h a x hx)
    · cases hs
  | move a =>
    rw [valueStep] at hs
    split at hs
    · rename_i x hx
      cases hs
      refine push _ _ (upd _ _ _ h ?_) (h a x hx)
      intro z hz; cases hz; exact h a x hx
    · cases hs
  | destroy a =>
    rw [valueStep] at hs
    split at hs
    · cases hs
      exact upd _ _ _ h (by intro z hz; cases hz)
    · cases hs
  | assign dst src realloc =>
    rw [valueStep] at hs
    split at hs
    · rename_i z x hz hx
      cases hs
      split
      · exact h
      · exact upd _ _ _ h (by intro y hy; cases hy; exact h src x hx)
    · cases hs
  | moveAssign dst src =>
    rw [valueStep] at hs
    split at hs
    · rename_i z x hz hx
      split at hs
      · cases hs
      · cases hs
        refine upd _ _ _ (upd _ _ _ h ?_) ?_
        · intro y hy; cases hy; exact h src x hx
        · intro y hy; cases hy; exact h src x hx
    · cases hs
  | call a c =>
    rw [valueStep] at hs
    split at hs
    · rename_i v hx
      obtain ⟨f, seed, height, af, w, i, hl, hc⟩ := h a _ hx
      cases hv : v.fullCall S c with
      | none => rw [hv] at hs; cases hs
      | some y =>
        obtain ⟨r', v'⟩ := y
        rw [hv] at hs
        cases hs
        obtain ⟨w', i', hc'⟩ := canon_fullCall hl hc c hv
        exact upd _ _ _ h (by intro z hz; cases hz; exact ⟨f, seed, height, af, w', i', hl, hc'⟩)
    · rename_i v hx
      obtain ⟨f, seed, height, af, w, i, hl, hc⟩ := h a _ hx
      cases c with
      | basic c => cases hs
      | initializeTree u =>
        simp only at hs
        cases hv : v.initializeTree S u with
        | ub => rw [hv] at hs; cases hs
        | raise e v' => rw [hv] at hs; cases hs
        | ret z v' =>
          rw [hv] at hs
          cases hs
          obtain ⟨w', i', hc'⟩ := canon_fullCall hl hc (.initializeTree u) (by rw [XmssFast.fullCall, hv])
          exact upd _ _ _ h (by intro z hz; cases hz; exact ⟨f, seed, height, af, w', i', hl, hc'⟩)
    · cases hs

theorem allCanon_run {S : Sha256} (ops : List FastOp) : ∀ {W W' : List (Option ValueObj)} {rs : List OpReply},
    AllCanon S W → valueRun S W ops = some (rs, W') → AllCanon S W' := by
  induction ops with
  | nil => intro W W' rs h hr; cases hr; exact h
  | cons op ops ih =>
    intro W W' rs h hr
    rw [valueRun] at hr
    cases hs : valueStep S W op with
    | none => rw [hs] at hr; cases hr
    | some x =>
      obtain ⟨r, W1⟩ := x
      rw [hs] at hr
      simp only at hr
      cases hr1 : valueRun S W1 ops with
      | none => rw [hr1] at hr; cases hr
      | some y =>
        obtain ⟨rs1, W2⟩ := y
        rw [hr1] at hr
        cases hr
        exact ih (allCanon_step h hs) hr1

/-- Signing through pointers into freed memory is undefined. -/
theorem sign_dangling {S : Sha256} {f : HashFn} {seed : Bytes} {height : UInt8} {af w i : Nat} {v : XmssFast}
    (hc : CanonAny S f seed height af w i v) (hlt : i < 2 ^ v.height.toNat) {m : FastMem} {n : Nat} {d : FastObj}
    (hd : m.objs[n]? = some (some d)) (hb : d.base = v.toXmssBase) (hf : m.bufs.getD d.ptr Bufs.freed = Bufs.freed) (msg : Bytes) :
    m.step S (.call n (.basic (.sign msg))) = none := by
  obtain ⟨p, hlen, o1, H, rfl, e2, e3, hj, rfl⟩ := hc
  rw [FastMem.step, hd]
  simp only
  have hv : m.view d = { fastAt S f (keyP S f p.w p.len o1.height.toNat hlen seed) o1 i with
      state := Bufs.freed.state d.stackoffset d.nextLeaf } := by
    simp only [FastMem.view, hf, hb]
  rw [hv, XmssFast.call, sign_freed H i hlt]

theorem canonAny_index {S : Sha256} {f : HashFn} {seed : Bytes} {height : UInt8} {af w i : Nat} {v : XmssFast}
    (hc : CanonAny S f seed height af w i v) : v.getIndex = ok i := by
  obtain ⟨p, hlen, o1, H, rfl, e2, e3, hj, rfl⟩ := hc
  exact H.getIndex i hj

/-- C68. `std::swap` is safe: of two different whole objects, each is afterwards, in every program, what the other was. -/
theorem C68_swap_safe (S : Sha256) (ops : List FastOp) (rs : List OpReply) (W : List (Option ValueObj))
    (h : valueRun S [] ops = some (rs, W)) (a b : Nat) (hab : a ≠ b) (x y : XmssFast) (ha : W[a]? = some (some ⟨x, true⟩))
    (hb : W[b]? = some (some ⟨y, true⟩)) (ops' : List FastOp) (rs' : List OpReply) (W' : List (Option ValueObj))
    (h' : valueRun S ((W.set a (some ⟨y, true⟩)).set b (some ⟨x, true⟩) ++ [none]) ops' = some (rs', W')) :
    ∃ m, FastMem.run S ⟨[], []⟩ (ops ++ (swapOps a b W.length ++ ops')) =
      some (rs ++ ([.made W.length, .done, .done, .done] ++ rs'), m) := by
  have hal := (List.getElem?_eq_some_iff.mp ha).1
  have hbl := (List.getElem?_eq_some_iff.mp hb).1
  have hs : valueRun S W (swapOps a b W.length) = some ([.made W.length, .done, .done, .done],
      (W.set a (some ⟨y, true⟩)).set b (some ⟨x, true⟩) ++ [none]) := by
    have e1 : (W.set a (some ⟨x, false⟩) ++ [some ⟨x, true⟩])[a]? = some (some ⟨x, false⟩) := by
      rw [List.getElem?_append_left (by simpa using hal), List.getElem?_set_self hal]
    have e2 : (W.set a (some ⟨x, false⟩) ++ [some ⟨x, true⟩])[b]? = some (some ⟨y, true⟩) := by
      rw [List.getElem?_append_left (by simpa using hbl), List.getElem?_set_ne hab, hb]
    have f1 : ((W.set a (some ⟨x, false⟩) ++ [some (ValueObj.mk x true)]).set b (some ⟨y, false⟩)).set a (some ⟨y, true⟩) =
        (W.set a (some ⟨y, true⟩)).set b (some ⟨y, false⟩) ++ [some (ValueObj.mk x true)] := by
      rw [List.set_append_left _ _ (by simpa using hbl), List.set_append_left _ _ (by simpa using hal),
        List.set_comm _ _ hab.symm, List.set_set]
    have e3 : ((W.set a (some ⟨y, true⟩)).set b (some ⟨y, false⟩) ++ [some (ValueObj.mk x true)])[b]? = some (some ⟨y, false⟩) := by
      rw [List.getElem?_append_left (by simpa using hbl), List.getElem?_set_self (by simpa using hbl)]
    have e4 : ((W.set a (some ⟨y, true⟩)).set b (some ⟨y, false⟩) ++ [some (ValueObj.mk x true)])[W.length]? = some (some ⟨x, true⟩) := by
      rw [List.getElem?_append_right (by simp)]; simp
    have f2 : (((W.set a (some ⟨y, true⟩)).set b (some ⟨y, false⟩) ++ [some (ValueObj.mk x true)]).set W.length (some ⟨x, false⟩)).set b
        (some ⟨x, true⟩) = (W.set a (some ⟨y, true⟩)).set b (some ⟨x, true⟩) ++ [some (ValueObj.mk x false)] := by
      rw [List.set_append_right _ _ (by simp), List.set_append_left _ _ (by simpa using hbl), List.set_set]; simp
    have e5 : ((W.set a (some ⟨y, true⟩)).set b (some ⟨x, true⟩) ++ [some (ValueObj.mk x false)])[W.length]? =
        some (some ⟨x, false⟩) := by
      rw [List.getElem?_append_right (by simp)]; simp
    have f3 : ((W.set a (some ⟨y, true⟩)).set b (some ⟨x, true⟩) ++ [some (ValueObj.mk x false)]).set W.length none =
        (W.set a (some ⟨y, true⟩)).set b (some ⟨x, true⟩) ++ [none] := by
      rw [List.set_append_right _ _ (by simp)]; simp
    rw [swapOps, valueRun, valueStep, ha]
    simp only
    rw [valueRun, valueStep, e1, e2]
    simp only
    rw [if_neg hab, f1]
    simp only
    rw [valueRun, valueStep, e3, e4]
    simp only
    rw [if_neg (by omega), f2]
    simp only
    rw [valueRun, valueStep, e5]
    simp only
    rw [f3, valueRun]
  obtain ⟨m, e, _⟩ := C68_value_semantics S _ _ _ (valueRun_append S _ _ h (valueRun_append S _ _ hs h'))
  exact ⟨m, e⟩

/-- C68, refuted: the natural property that an assigned copy stays usable when the original goes away. After any program as
in `C68_value_semantics`, assign a whole object whose keys are not used up to another object, then destroy it: signing
anything with the other object is undefined behaviour, whether or not the assignment took new memory. -/
theorem C68_assign_dangling_refuted (S : Sha256) (ops : List FastOp) (rs : List OpReply) (W : List (Option ValueObj))
    (h : valueRun S [] ops = some (rs, W)) (a b : Nat) (hab : a ≠ b) (v : XmssFast) (z : ValueObj)
    (ha : W[a]? = some (some ⟨v, true⟩)) (hb : W[b]? = some (some z)) (i : Nat)
    (hi : v.getIndex = ok i) (hlt : i < 2 ^ v.height.toNat) (realloc : Bool) (msg : Bytes) :
    FastMem.run S ⟨[], []⟩ (ops ++ [.assign b a realloc, .destroy a, .call b (.basic (.sign msg))]) = none := by
  obtain ⟨m, e, hr⟩ := mem_run ops memRel_empty h
  obtain ⟨f, seed, height, af, w, j, hl, hcan⟩ := allCanon_run ops (by intro a x hx; cases hx) h a _ ha
  have hij : i = j := by
    have := canonAny_index hcan
    rw [hi] at this; cases this; rfl
  subst hij
  obtain ⟨o, ho, hrel⟩ := hr.find ha
  obtain ⟨d, hd, _⟩ := hr.find hb
  obtain ⟨g1, g2, g3, g4⟩ := hrel.whole rfl
  have hal : a < m.objs.length := (List.getElem?_eq_some_iff.mp ho).1
  have hbl : b < m.objs.length := (List.getElem?_eq_some_iff.mp hd).1
  have hpl := (List.getElem?_eq_some_iff.mp g2).1
  rw [memRun_append S ops _ e]
  -- whichever memory the assignment chose
  have go : ∀ (own : Option Nat) (bufs : List Bufs), o.ptr < bufs.length →
      FastMem.run S ⟨m.objs.set b (some { o with own := own }), bufs⟩ [.destroy a, .call b (.basic (.sign msg))] = none := by
    intro own bufs hp
    rw [FastMem.run, FastMem.step]
    simp only [List.getElem?_set_ne hab.symm, ho, g1, freeOwn]
    rw [FastMem.run, sign_dangling hcan hlt (d := { o with own := own })]
    · simp only [List.getElem?_set_ne hab]
      exact List.getElem?_set_self hbl
    · exact hrel.base
    · simp only [List.getD_eq_getElem?_getD]
      rw [List.getElem?_set_self hp]; rfl
  rw [FastMem.run, FastMem.step, hd, ho]
  simp only
  rw [if_neg hab.symm]
  have hfresh := go (some m.bufs.length) (freeOwn m.bufs d.own ++ [ownContent m.bufs o.own]) (by simp [freeOwn_length]; omega)
  cases hk : d.own with
  | none => rw [hk] at hfresh; simp only; rw [hfresh]; rfl
  | some k =>
    cases realloc with
    | true => rw [hk] at hfresh; simp only; rw [hfresh]; rfl
    | false => simp only; rw [go (some k) _ (by simpa using hpl)]; rfl

/-- C68, refuted: the natural property that an object may be assigned from a moved-from one without harm to others. Copy a
whole object `a` whose keys are not used up, move another object `b` away, and assign the moved-from `b` to `a`, which
keeps its memory: `a`'s vectors are now empty, and signing with the copy, which points into them, is undefined behaviour
although `a` was neither destroyed nor rebuilt. -/
theorem C68_assign_moved_refuted (S : Sha256) (ops : List FastOp) (rs : List OpReply) (W : List (Option ValueObj))
    (h : valueRun S [] ops = some (rs, W)) (a b : Nat) (hab : a ≠ b) (v : XmssFast) (z : ValueObj)
    (ha : W[a]? = some (some ⟨v, true⟩)) (hb : W[b]? = some (some z)) (i : Nat)
    (hi : v.getIndex = ok i) (hlt : i < 2 ^ v.height.toNat) (msg : Bytes) :
    FastMem.run S ⟨[], []⟩ (ops ++ [.copy a, .move b, .assign a b false, .call W.length (.basic (.sign msg))]) = none := by
  obtain ⟨m, e, hr⟩ := mem_run ops memRel_empty h
  obtain ⟨f, seed, height, af, w, j, hl, hcan⟩ := allCanon_run ops (by intro a x hx; cases hx) h a _ ha
  have hij : i = j := by
    have := canonAny_index hcan
    rw [hi] at this; cases this; rfl
  subst hij
  obtain ⟨o, ho, hrel⟩ := hr.find ha
  obtain ⟨d, hd, _⟩ := hr.find hb
  obtain ⟨g1, g2, g3, g4⟩ := hrel.whole rfl
  have hal : a < m.objs.length := (List.getElem?_eq_some_iff.mp ho).1
  have hbl : b < m.objs.length := (List.getElem?_eq_some_iff.mp hd).1
  have hpl := (List.getElem?_eq_some_iff.mp g2).1
  have hWl := hr.len
  rw [memRun_append S ops _ e]
  obtain ⟨nb, hnb⟩ : ∃ nb, m.step S (.copy a) = some (.made m.objs.length,
      ⟨m.objs ++ [some { o with own := some m.bufs.length }], m.bufs ++ [nb]⟩) := by
    rw [FastMem.step, ho]; exact ⟨_, rfl⟩
  rw [FastMem.run, hnb]
  simp only
  rw [FastMem.run, FastMem.step]
  simp only [List.getElem?_append_left hbl, hd]
  rw [List.set_append_left _ _ hbl, FastMem.run, FastMem.step]
  have ea : (m.objs.set b (some { d with own := none }) ++ [some { o with own := some m.bufs.length }] ++ [some d])[a]? =
      some (some o) := by
    rw [List.append_assoc, List.getElem?_append_left (by simpa using hal), List.getElem?_set_ne hab.symm, ho]
  have eb : (m.objs.set b (some { d with own := none }) ++ [some { o with own := some m.bufs.length }] ++ [some d])[b]? =
      some (some { d with own := none }) := by
    rw [List.append_assoc, List.getElem?_append_left (by simpa using hbl), List.getElem?_set_self hbl]
  simp only [ea, eb]
  rw [if_neg hab]
  simp only [g1, ownContent]
  rw [FastMem.run, sign_dangling hcan hlt (d := { o with own := some m.bufs.length })]
  · rfl
  · simp only
    rw [List.getElem?_set_ne (by omega), List.append_assoc, List.getElem?_append_right (by simp; omega)]
    simp [hWl]
  · exact hrel.base
  · simp only [List.getD_eq_getElem?_getD]
    rw [List.getElem?_set_self (by simp; omega)]; rfl

/-- Copying a list of live objects. -/
theorem copyAll (S : Sha256) (as : List Nat) : ∀ (m : FastMem), (∀ a ∈ as, ∃ o, m.objs[a]? = some (some o)) →
    ∃ rs m', m.run S (as.map .copy) = some (rs, m') ∧ (∀ i, i < m.objs.length → m'.objs[i]? = m.objs[i]?) ∧
      m.objs.length ≤ m'.objs.length ∧
      (∀ (k a : Nat) o, as[k]? = some a → m.objs[a]? = some (some o) →
        ∃ d, m'.objs[m.objs.length + k]? = some (some d) ∧ d.base = o.base ∧ d.ptr = o.ptr) ∧
      m.bufs.length ≤ m'.bufs.length := by
  induction as with
  | nil => intro m _; exact ⟨[], m, rfl, fun _ _ => rfl, Nat.le_refl _, by simp, Nat.le_refl _⟩
  | cons a as ih =>
    intro m h
    obtain ⟨o, ho⟩ := h a (List.mem_cons_self ..)
    have hal : a < m.objs.length := (List.getElem?_eq_some_iff.mp ho).1
    let m1 : FastMem := ⟨m.objs ++ [some { o with own := some m.bufs.length }], m.bufs ++ [ownContent m.bufs o.own]⟩
    have hstep : m.step S (.copy a) = some (.made m.objs.length, m1) := by rw [FastMem.step, ho]
    have old : ∀ i, i < m.objs.length → m1.objs[i]? = m.objs[i]? := fun i hi => List.getElem?_append_left hi
    obtain ⟨rs, m', e1, e2, e3, e4, e5⟩ := ih m1 (by
      intro a' ha'
      obtain ⟨o', ho'⟩ := h a' (List.mem_cons_of_mem _ ha')
      exact ⟨o', by rw [old _ (List.getElem?_eq_some_iff.mp ho').1, ho']⟩)
    have hl1 : m1.objs.length = m.objs.length + 1 := by simp [m1]
    have hb1 : m1.bufs.length = m.bufs.length + 1 := by simp [m1]
    refine ⟨.made m.objs.length :: rs, m', by rw [List.map_cons, FastMem.run, hstep]; simp only [e1], ?_, by omega, ?_, by omega⟩
    · intro i hi; rw [e2 i (by omega), old i hi]
    · intro k a' o' hk ho'
      cases k with
      | zero =>
        simp only [List.getElem?_cons_zero, Option.some.injEq] at hk
        subst hk
        rw [ho] at ho'
        cases ho'
        refine ⟨{ o with own := some m.bufs.length }, ?_, rfl, rfl⟩
        rw [Nat.add_zero, e2 _ (by omega)]
        simp [m1]
      | succ k =>
        obtain ⟨d, h1, h2, h3⟩ := e4 k a' o' (by simpa using hk) (by rw [old _ (List.getElem?_eq_some_iff.mp ho').1, ho'])
        refine ⟨d, ?_, h2, h3⟩
        rw [show m.objs.length + (k + 1) = m1.objs.length + k by omega]
        exact h1

/-- Destroying a list of live objects frees what they own. -/
theorem destroyAll (S : Sha256) (as : List Nat) : ∀ (m : FastMem), as.Nodup → (∀ a ∈ as, ∃ o, m.objs[a]? = some (some o)) →
    ∃ rs m', m.run S (as.map .destroy) = some (rs, m') ∧ (∀ i, i ∉ as → m'.objs[i]? = m.objs[i]?) ∧
      (∀ b : Nat, m.bufs[b]? = some Bufs.freed → m'.bufs[b]? = some Bufs.freed) ∧
      (∀ (a : Nat) o b, a ∈ as → m.objs[a]? = some (some o) → o.own = some b → b < m.bufs.length →
        m'.bufs[b]? = some Bufs.freed) := by
  induction as with
  | nil => intro m _ _; exact ⟨[], m, rfl, fun _ _ => rfl, fun _ h => h, by simp⟩
  | cons a as ih =>
    intro m hn h
    obtain ⟨hna, hn'⟩ := List.nodup_cons.mp hn
    obtain ⟨o, ho⟩ := h a (List.mem_cons_self ..)
    have hal : a < m.objs.length := (List.getElem?_eq_some_iff.mp ho).1
    have hstep : m.step S (.destroy a) = some (.done, ⟨m.objs.set a none, freeOwn m.bufs o.own⟩) := by rw [FastMem.step, ho]
    have keep : ∀ b : Nat, m.bufs[b]? = some Bufs.freed → (freeOwn m.bufs o.own)[b]? = some Bufs.freed := by
      intro b hb
      by_cases e : o.own = some b
      · rw [e, freeOwn, List.getElem?_set_self (List.getElem?_eq_some_iff.mp hb).1]
      · rw [freeOwn_other _ _ _ e, hb]
    obtain ⟨rs, m', e1, e2, e3, e4⟩ := ih ⟨m.objs.set a none, freeOwn m.bufs o.own⟩ hn' (by
      intro a' ha'
      obtain ⟨o', ho'⟩ := h a' (List.mem_cons_of_mem _ ha')
      refine ⟨o', ?_⟩
      simp only
      rw [List.getElem?_set_ne (by intro e; rw [e] at hna; exact hna ha'), ho'])
    refine ⟨.done :: rs, m', by rw [List.map_cons, FastMem.run, hstep]; simp only [e1], ?_, fun b hb => e3 b (keep b hb), ?_⟩
    · intro i hi
      rw [e2 i (fun hm => hi (List.mem_cons_of_mem _ hm))]
      simp only
      rw [List.getElem?_set_ne (by intro e; rw [← e] at hi; exact hi (List.mem_cons_self ..))]
    · intro a' o' b ha' ho' hb hlt
      rcases List.mem_cons.mp ha' with rfl | hm
      · rw [ho] at ho'
        cases ho'
        apply e3
        simp only
        rw [hb, freeOwn, List.getElem?_set_self hlt]
      · refine e4 a' o' b hm ?_ hb (by simpa [freeOwn_length] using hlt)
        simp only
        rw [List.getElem?_set_ne (by intro e; rw [e] at hna; exact hna hm), ho']

/-- C68, refuted: the natural property that `XmssFast` objects can be kept in a `std::vector`. After any program as in
`C68_value_semantics`, let a vector with the whole objects `as` as elements grow (`growOps`): signing with any element whose
keys are not used up is undefined behaviour. -/
theorem C68_vector_growth_refuted (S : Sha256) (ops : List FastOp) (rs : List OpReply) (W : List (Option ValueObj))
    (h : valueRun S [] ops = some (rs, W)) (as : List Nat) (hn : as.Nodup)
    (hw : ∀ a ∈ as, ∃ v, W[a]? = some (some ⟨v, true⟩)) (k a : Nat) (hk : as[k]? = some a) (v : XmssFast)
    (ha : W[a]? = some (some ⟨v, true⟩)) (i : Nat) (hi : v.getIndex = ok i) (hlt : i < 2 ^ v.height.toNat) (msg : Bytes) :
    FastMem.run S ⟨[], []⟩ (ops ++ (growOps as ++ [.call (W.length + k) (.basic (.sign msg))])) = none := by
  obtain ⟨m, e, hr⟩ := mem_run ops memRel_empty h
  obtain ⟨f, seed, height, af, w, j, hl, hcan⟩ := allCanon_run ops (by intro a x hx; cases hx) h a _ ha
  have hij : i = j := by
    have := canonAny_index hcan
    rw [hi] at this; cases this; rfl
  subst hij
  obtain ⟨o, ho, hrel⟩ := hr.find ha
  obtain ⟨g1, g2, g3, g4⟩ := hrel.whole rfl
  have hpl := (List.getElem?_eq_some_iff.mp g2).1
  have hlive : ∀ a ∈ as, ∃ o, m.objs[a]? = some (some o) := by
    intro a' ha'
    obtain ⟨v', hv'⟩ := hw a' ha'
    obtain ⟨o', ho', _⟩ := hr.find hv'
    exact ⟨o', ho'⟩
  obtain ⟨rs1, m1, e1, e2, e3, e4, e5⟩ := copyAll S as m hlive
  obtain ⟨d, hd, hdb, hdp⟩ := e4 k a o hk ho
  have hold : ∀ a ∈ as, m1.objs[a]? = m.objs[a]? := by
    intro a' ha'
    obtain ⟨o', ho'⟩ := hlive a' ha'
    exact e2 a' (List.getElem?_eq_some_iff.mp ho').1
  obtain ⟨rs2, m2, c1, c2, c3, c4⟩ := destroyAll S as m1 hn (by
    intro a' ha'
    rw [hold a' ha']; exact hlive a' ha')
  have hmem : a ∈ as := List.mem_of_getElem? hk
  have hfree := c4 a o o.ptr hmem (by rw [hold a hmem, ho]) g1 (by omega)
  have hnot : m.objs.length + k ∉ as := by
    intro hc
    obtain ⟨o', ho'⟩ := hlive _ hc
    have := (List.getElem?_eq_some_iff.mp ho').1
    omega
  rw [memRun_append S ops _ e, growOps, List.append_assoc, memRun_append S _ _ e1, memRun_append S _ _ c1, FastMem.run,
    sign_dangling hcan hlt (d := d)]
  · rfl
  · rw [← hr.len, c2 _ hnot, hd]
  · rw [hdb, hrel.base]
  · rw [hdp, List.getD_eq_getElem?_getD, hfree]; rfl

/-- C68, refuted: the natural property that a copy stays usable when the original goes away. After any program as in
`C68_value_semantics`, copy a whole object whose keys are not used up, then destroy the original, or call
`initialize_tree` on it: signing anything with the copy is undefined behaviour (its state points into freed memory). -/
theorem C68_dangling_refuted (S : Sha256) (ops : List FastOp) (rs : List OpReply) (W : List (Option ValueObj))
    (h : valueRun S [] ops = some (rs, W)) (a : Nat) (v : XmssFast) (ha : W[a]? = some (some ⟨v, true⟩)) (i : Nat)
    (hi : v.getIndex = ok i) (hlt : i < 2 ^ v.height.toNat) (op : FastOp)
    (hop : op = .destroy a ∨ ∃ w, op = .call a (.initializeTree w)) (msg : Bytes) :
    FastMem.run S ⟨[], []⟩ (ops ++ [.copy a, op, .call W.length (.basic (.sign msg))]) = none := by
  obtain ⟨m, e, hr⟩ := mem_run ops memRel_empty h
  have hcan := allCanon_run ops (by intro a x hx; cases hx) h
  obtain ⟨f, seed, height, af, w, j, hl, p, hlen, o1, H, rfl, e2, e3, hj, rfl⟩ := hcan a _ ha
  rw [H.getIndex j hj] at hi
  cases hi
  obtain ⟨o, ho, hrel⟩ := hr.find ha
  obtain ⟨g1, g2, g3, g4⟩ := hrel.whole rfl
  have hal : a < m.objs.length := (List.getElem?_eq_some_iff.mp ho).1
  have hpl := (List.getElem?_eq_some_iff.mp g2).1
  rw [memRun_append S ops _ e]
  have key : ∀ (m' : FastMem), m'.objs[W.length]? = some (some { o with own := some m.bufs.length }) →
      m'.bufs.getD o.ptr Bufs.freed = Bufs.freed → m'.step S (.call W.length (.basic (.sign msg))) = none := by
    intro m' h1 h2
    rw [FastMem.step, h1]
    simp only
    have hv : m'.view { o with own := some m.bufs.length } =
        { fastAt S f (keyP S f p.w p.len o1.height.toNat hlen seed) o1 i with
          state := Bufs.freed.state o.stackoffset o.nextLeaf } := by
      simp only [FastMem.view, h2, hrel.base]
    rw [hv, XmssFast.call, sign_freed H i hlt]
  obtain ⟨nb, hnb⟩ : ∃ nb, m.step S (.copy a) = some (.made m.objs.length,
      ⟨m.objs ++ [some { o with own := some m.bufs.length }], m.bufs ++ [nb]⟩) := by
    rw [FastMem.step, ho]; exact ⟨_, rfl⟩
  rw [FastMem.run, hnb]
  simp only
  have hc : (m.objs ++ [some { o with own := some m.bufs.length }])[W.length]? =
      some (some { o with own := some m.bufs.length }) := by rw [← hr.len]; simp
  have hoa : (m.objs ++ [some { o with own := some m.bufs.length }])[a]? = some (some o) := by
    rw [List.getElem?_append_left hal, ho]
  have hne : a ≠ W.length := by rw [← hr.len]; omega
  rcases hop with rfl | ⟨w', rfl⟩
  · rw [FastMem.run, FastMem.step]
    simp only [hoa, g1, freeOwn]
    rw [FastMem.run, key]
    · rfl
    · simp only [List.getElem?_set_ne hne, hc]
    · simp only [List.getD_eq_getElem?_getD]
      rw [List.getElem?_set_self (by simp; omega)]
      rfl
  · rw [FastMem.run, FastMem.step]
    simp only [hoa]
    have hbase : ∀ (m' : FastMem), (m'.view o).height = o1.height ∧ (m'.view o).hashFunction = f.toNat ∧
        (m'.view o).seed = seed := by
      intro m'
      refine ⟨?_, ?_, ?_⟩
      · show o.base.height = _
        rw [hrel.base]; rfl
      · show o.base.hashFunction = _
        rw [hrel.base]; exact H.hof
      · show o.base.seed = _
        rw [hrel.base]; exact e2
    cases hit : XmssFast.initializeTree S (FastMem.view ⟨m.objs ++ [some { o with own := some m.bufs.length }],
      m.bufs ++ [nb]⟩ o) w' with
    | ub => rfl
    | ret u o' =>
      simp only [g1, freeOwn]
      rw [FastMem.run, key]
      · rfl
      · simp only [List.getElem?_set_ne hne, hc]
      · simp only [List.getD_eq_getElem?_getD]
        rw [List.getElem?_append_left (by simp; omega), List.getElem?_set_self (by simp; omega)]
        rfl
    | raise e' o' =>
      exfalso
      obtain ⟨b1, b2, b3⟩ := hbase ⟨m.objs ++ [some { o with own := some m.bufs.length }], m.bufs ++ [nb]⟩
      rw [XmssFast.initializeTree] at hit
      simp only [b1, b2, b3] at hit
      obtain ⟨h4, h30, he⟩ := H.hh
      rw [if_neg (by omega)] at hit
      by_cases hcr : CrashW w'
      · rw [initTree, xmssSetParams, if_neg (by omega), wotsSetParams_crash hcr] at hit
        cases hit
      · obtain ⟨p', hp'⟩ := wotsSetParams_fine hcr
        obtain ⟨st', e, _⟩ := initTree_any S seed o1.height f hp' (wotsSetParams_ok hp').2.2.2.1 hl H.hh
        rw [e] at hit
        cases hit

/-- A copy or a moved-from object seen as the copy of `Verif.Model.Copy`. -/
theorem alias_sign (S : Sha256) (t : Twins) (o : FastObj) (d : FastObj) (bufs : List Bufs) (m1 : Bytes)
    (hp : d.ptr = o.ptr) (hlt : o.ptr < bufs.length)
    (ho : FastMem.view ⟨[some o, some d], bufs⟩ o = t.original) (hd : FastMem.view ⟨[some o, some d], bufs⟩ d = t.copy)
    (s1 : Bytes) (t1 : Twins) (h : t.signOriginal S m1 = .ret s1 t1) :
    ∃ o' bufs', FastMem.step S ⟨[some o, some d], bufs⟩ (.call 0 (.basic (.sign m1))) =
        some (.reply (some (.sig s1)), ⟨[some o', some d], bufs'⟩) ∧
      FastMem.view ⟨[some o', some d], bufs'⟩ d = t1.copy := by
  rw [Twins.signOriginal] at h
  cases hs : t.original.sign S m1 with
  | ub => rw [hs] at h; cases h
  | raise e x => rw [hs] at h; cases h
  | ret s x =>
    rw [hs] at h
    cases h
    refine ⟨{ o with base := x.toXmssBase, stackoffset := x.state.stackoffset, nextLeaf := x.state.nextLeaf },
      bufs.set o.ptr (Bufs.of x.state), ?_, ?_⟩
    · rw [FastMem.step]
      simp only [List.getElem?_cons_zero]
      rw [ho, XmssFast.call, hs]
      rfl
    · rw [← hd]
      simp only [FastMem.view, hp, List.getD_eq_getElem?_getD]
      rw [List.getElem?_set_self hlt]
      rfl

/-- C68. While the original lives, a copy and a moved-from object are aliases of it: with `d` either of them, sign with
one, then with the other. Both calls return, and both signatures use one-time key 0. -/
theorem C68_alias_reuse (S : Sha256) (seed : Bytes) (height : UInt8) (hf : HashFn) (af : Nat) (o0 : XmssFast)
    (hnew : XmssFast.new S seed height hf.toNat af = ok o0) (op : FastOp) (hop : op = .copy 0 ∨ op = .move 0) (m1 m2 : Bytes) :
    ∃ s1 s2 m, FastMem.run S ⟨[], []⟩ [.create seed height hf.toNat af, op, .call 0 (.basic (.sign m1)),
        .call 1 (.basic (.sign m2))] =
        some ([.made 0, .made 1, .reply (some (.sig s1)), .reply (some (.sig s2))], m) ∧
      sigIndex s1 = 0 ∧ sigIndex s2 = 0 ∧ s1 = seedSignature S hf 16 height.toNat seed 0 m1 := by
  obtain ⟨s1, s2, t1, t2, h1, h2, h3, h4, h5, h6⟩ := C49_copy_refuted S seed height hf af o0 hnew m1 m2
  have hstep : ∃ o d bufs, FastMem.run S ⟨[], []⟩ [.create seed height hf.toNat af, op] =
      some ([.made 0, .made 1], ⟨[some o, some d], bufs⟩) ∧ d.ptr = o.ptr ∧ o.ptr < bufs.length ∧
      FastMem.view ⟨[some o, some d], bufs⟩ o = o0 ∧ FastMem.view ⟨[some o, some d], bufs⟩ d = o0 := by
    rcases hop with rfl | rfl
    · refine ⟨⟨o0.toXmssBase, o0.state.stackoffset, o0.state.nextLeaf, some 0, 0⟩,
        ⟨o0.toXmssBase, o0.state.stackoffset, o0.state.nextLeaf, some 1, 0⟩, [Bufs.of o0.state, Bufs.of o0.state],
        ?_, rfl, Nat.succ_pos _, rfl, rfl⟩
      simp [FastMem.run, FastMem.step, hnew, ownContent]
    · refine ⟨⟨o0.toXmssBase, o0.state.stackoffset, o0.state.nextLeaf, none, 0⟩,
        ⟨o0.toXmssBase, o0.state.stackoffset, o0.state.nextLeaf, some 0, 0⟩, [Bufs.of o0.state],
        ?_, rfl, Nat.succ_pos _, rfl, rfl⟩
      simp [FastMem.run, FastMem.step, hnew]
  obtain ⟨o, d, bufs, hrun, hp, hlt, ho, hd⟩ := hstep
  obtain ⟨o', bufs', e1, e2⟩ := alias_sign S o0.copyOf o d bufs m1 hp hlt ho hd s1 t1 h1
  have hc : ∃ m, FastMem.step S ⟨[some o', some d], bufs'⟩ (.call 1 (.basic (.sign m2))) =
      some (.reply (some (.sig s2)), m) := by
    rw [FastMem.step]
    simp only [List.getElem?_cons_succ, List.getElem?_cons_zero]
    rw [e2]
    rw [Twins.signCopy] at h2
    cases hs : t1.copy.sign S m2 with
    | ub => rw [hs] at h2; cases h2
    | raise e x => rw [hs] at h2; cases h2
    | ret s x =>
      rw [hs] at h2
      cases h2
      rw [XmssFast.call, hs]
      exact ⟨_, rfl⟩
  obtain ⟨m, hm⟩ := hc
  refine ⟨s1, s2, m, ?_, h4, h5, h3⟩
  have := memRun_append S [.create seed height hf.toNat af, op] [.call 0 (.basic (.sign m1)), .call 1 (.basic (.sign m2))]
    hrun
  rw [List.cons_append, List.cons_append, List.nil_append] at this
  rw [this, FastMem.run, e1]
  simp only
  rw [FastMem.run, hm]
  rfl

/-- A program with a move, a copy that is re-initialised, and signatures by all of them. -/
theorem lifetime_demo (S : Sha256) (seed : Bytes) (height : UInt8) (hf : HashFn) (af : Nat) (o0 : XmssFast)
    (hnew : XmssFast.new S seed height hf.toNat af = ok o0) (m1 m2 : Bytes) :
    ∃ rs m, FastMem.run S ⟨[], []⟩ [.create seed height hf.toNat af, .call 0 (.basic (.sign m1)), .move 0, .destroy 0,
      .copy 1, .call 2 (.initializeTree 16), .destroy 1, .call 2 (.basic (.sign m2))] = some (rs, m) := by
  obtain ⟨o2, e2, _⟩ := C44_full_refines S seed height hf af o0 hnew
    [.basic (.sign m1), .initializeTree 16, .basic (.sign m2)] (by intro w hw; simp at hw; omega)
  generalize (Spec.fullRun (2 ^ height.toNat) (fun w => seedSignature S hf w height.toNat seed) 16 0
    [.basic (.sign m1), .initializeTree 16, .basic (.sign m2)]).1 = rs at e2
  rw [runFull] at e2
  cases hs : o0.fullCall S (.basic (.sign m1)) with
  | none => rw [hs] at e2; cases e2
  | some x =>
    obtain ⟨r1, v1⟩ := x
    rw [hs] at e2
    simp only [runFull] at e2
    cases hi : v1.fullCall S (.initializeTree 16) with
    | none => rw [hi] at e2; cases e2
    | some y =>
      obtain ⟨r2, v2⟩ := y
      rw [hi] at e2
      simp only at e2
      cases hs2 : v2.fullCall S (.basic (.sign m2)) with
      | none => rw [hs2] at e2; cases e2
      | some z =>
        obtain ⟨r3, v3⟩ := z
        cases hin : v1.initializeTree S 16 with
        | ub => rw [XmssFast.fullCall, hin] at hi; cases hi
        | raise e w =>
          exfalso
          obtain ⟨w1, i1, hc⟩ := canon_fullCall (fast_fresh hnew).1 (canonAny_fresh hnew) _ hs
          have := canonAny_call (fast_fresh hnew).1 hc (.initializeTree 16)
          rw [fullCallAny, if_neg (by decide), XmssFast.fullCall, hin] at this
          obtain ⟨_, he, _⟩ := this
          cases he
        | ret u w =>
          have hw : w = v2 := by
            rw [XmssFast.fullCall, hin] at hi; cases hi; rfl
          subst hw
          obtain ⟨m, hm, _⟩ := C68_value_semantics S [.create seed height hf.toNat af, .call 0 (.basic (.sign m1)), .move 0,
            .destroy 0, .copy 1, .call 2 (.initializeTree 16), .destroy 1, .call 2 (.basic (.sign m2))] _ _ (by
              simp only [valueRun, valueStep, hnew, List.nil_append, List.getElem?_cons_zero, hs, List.set_cons_zero,
                List.cons_append, List.getElem?_cons_succ, List.set_cons_succ, hin, hs2]
              rfl)
          exact ⟨_, m, hm⟩

example : ∃ rs m, FastMem.run toySha ⟨[], []⟩ [.create zeroSeed 4 (HashFn.toNat .shake_128) 0, .call 0 (.basic (.sign [1])), .move 0,
    .destroy 0, .copy 1, .call 2 (.initializeTree 16), .destroy 1, .call 2 (.basic (.sign [2]))] = some (rs, m) := by
  obtain ⟨o0, h⟩ := (C39_fast_succeeds toySha zeroSeed 4 (HashFn.toNat .shake_128) 0).mpr ⟨rfl, goodHeight4, by decide⟩
  exact lifetime_demo toySha zeroSeed 4 .shake_128 0 o0 h [1] [2]

/-- A dangling copy. -/
theorem dangling_demo (S : Sha256) (seed : Bytes) (height : UInt8) (hf : HashFn) (af : Nat) (o0 : XmssFast)
    (hnew : XmssFast.new S seed height hf.toNat af = ok o0) (m : Bytes) :
    FastMem.run S ⟨[], []⟩ [.create seed height hf.toNat af, .copy 0, .destroy 0, .call 1 (.basic (.sign m))] = none := by
  obtain ⟨o, h1, h2, _⟩ := C44_full_refines S seed height hf af o0 hnew [] (by intro w hw; simp at hw)
  cases h1
  exact C68_dangling_refuted S [.create seed height hf.toNat af] [.made 0] [some ⟨o0, true⟩]
    (by simp [valueRun, valueStep, hnew]) 0 o0 rfl 0 h2 (Nat.two_pow_pos _) (.destroy 0) (Or.inl rfl) m

example : FastMem.run toySha ⟨[], []⟩ [.create zeroSeed 4 (HashFn.toNat .shake_128) 0, .copy 0, .destroy 0,
    .call 1 (.basic (.sign [1]))] = none := by
  obtain ⟨o0, h⟩ := (C39_fast_succeeds toySha zeroSeed 4 (HashFn.toNat .shake_128) 0).mpr ⟨rfl, goodHeight4, by decide⟩
  exact dangling_demo toySha zeroSeed 4 .shake_128 0 o0 h [1]

/-- A vector of two elements that grows, and the same two swapped. -/
theorem growth_demo (S : Sha256) (seed : Bytes) (height : UInt8) (hf : HashFn) (af : Nat) (o0 : XmssFast)
    (hnew : XmssFast.new S seed height hf.toNat af = ok o0) (m : Bytes) :
    FastMem.run S ⟨[], []⟩ [.create seed height hf.toNat af, .create seed height hf.toNat af, .copy 0, .copy 1, .destroy 0,
      .destroy 1, .call 3 (.basic (.sign m))] = none ∧
    FastMem.run S ⟨[], []⟩ [.create seed height hf.toNat af, .create seed height hf.toNat af, .assign 1 0 false, .destroy 0,
      .call 1 (.basic (.sign m))] = none ∧
    ∃ s mem, FastMem.run S ⟨[], []⟩ [.create seed height hf.toNat af, .create seed height hf.toNat af, .move 0, .moveAssign 0 1,
      .moveAssign 1 2, .destroy 2, .call 0 (.basic (.sign m))] =
      some ([.made 0, .made 1, .made 2, .done, .done, .done, .reply (some (.sig s))], mem) := by
  obtain ⟨o, h1, h2, _⟩ := C44_full_refines S seed height hf af o0 hnew [] (by intro w hw; simp at hw)
  cases h1
  have hv : valueRun S [] [.create seed height hf.toNat af, .create seed height hf.toNat af] =
      some ([.made 0, .made 1], [some ⟨o0, true⟩, some ⟨o0, true⟩]) := by
    simp [valueRun, valueStep, hnew]
  refine ⟨?_, ?_, ?_⟩
  · exact C68_vector_growth_refuted S _ _ _ hv [0, 1] (by decide) (by
      intro a ha
      simp at ha
      rcases ha with rfl | rfl <;> exact ⟨o0, rfl⟩) 1 1 rfl o0 rfl 0 h2 (Nat.two_pow_pos _) m
  · exact C68_assign_dangling_refuted S _ _ _ hv 0 1 (by decide) o0 ⟨o0, true⟩ rfl rfl 0 h2 (Nat.two_pow_pos _) false m
  · obtain ⟨o1, e1, _⟩ := C44_full_refines S seed height hf af o0 hnew [.basic (.sign m)] (by intro w hw; simp at hw)
    have e2 : (Spec.fullRun (2 ^ height.toNat) (fun w => seedSignature S hf w height.toNat seed) 16 0 [.basic (.sign m)]).1 =
        [some (.sig (seedSignature S hf 16 height.toNat seed 0 m))] := by
      simp [Spec.fullRun, Spec.fullCall, Spec.counterCall]
    rw [e2] at e1
    obtain ⟨mem, hm⟩ := C68_swap_safe S _ _ _ hv 0 1 (by decide) o0 o0 rfl rfl [.call 0 (.basic (.sign m))] _ _
      (valueRun_calls S 0 [.basic (.sign m)] _ o0 o1 _ rfl e1)
    exact ⟨_, mem, hm⟩

example : FastMem.run toySha ⟨[], []⟩ [.create zeroSeed 4 (HashFn.toNat .shake_128) 0, .create zeroSeed 4 (HashFn.toNat .shake_128) 0,
    .copy 0, .copy 1, .destroy 0, .destroy 1, .call 3 (.basic (.sign [1]))] = none := by
  obtain ⟨o0, h⟩ := (C39_fast_succeeds toySha zeroSeed 4 (HashFn.toNat .shake_128) 0).mpr ⟨rfl, goodHeight4, by decide⟩
  exact (growth_demo toySha zeroSeed 4 .shake_128 0 o0 h [1]).1

theorem moved_demo (S : Sha256) (seed : Bytes) (height : UInt8) (hf : HashFn) (af : Nat) (o0 : XmssFast)
    (hnew : XmssFast.new S seed height hf.toNat af = ok o0) (m : Bytes) :
    FastMem.run S ⟨[], []⟩ [.create seed height hf.toNat af, .create seed height hf.toNat af, .copy 0, .move 1,
      .assign 0 1 false, .call 2 (.basic (.sign m))] = none := by
  obtain ⟨o, h1, h2, _⟩ := C44_full_refines S seed height hf af o0 hnew [] (by intro w hw; simp at hw)
  cases h1
  have hv : valueRun S [] [.create seed height hf.toNat af, .create seed height hf.toNat af] =
      some ([.made 0, .made 1], [some ⟨o0, true⟩, some ⟨o0, true⟩]) := by
    simp [valueRun, valueStep, hnew]
  exact C68_assign_moved_refuted S _ _ _ hv 0 1 (by decide) o0 ⟨o0, true⟩ rfl rfl 0 h2 (Nat.two_pow_pos _) m

example : FastMem.run toySha ⟨[], []⟩ [.create zeroSeed 4 (HashFn.toNat .shake_128) 0, .create zeroSeed 4 (HashFn.toNat .shake_128) 0,
    .copy 0, .move 1, .assign 0 1 false, .call 2 (.basic (.sign [1]))] = none := by
  obtain ⟨o0, h⟩ := (C39_fast_succeeds toySha zeroSeed 4 (HashFn.toNat .shake_128) 0).mpr ⟨rfl, goodHeight4, by decide⟩
  exact moved_demo toySha zeroSeed 4 .shake_128 0 o0 h [1]

end Qrl.Props
