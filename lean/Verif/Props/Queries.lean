import Verif.Proof.Queries
import Verif.Props.Threads
import Verif.Props.RustVerify
/-!
# C76: how much of SHA-256 a call depends on
-/

namespace Qrl.Props

open Outcome Spec

/-- The notion is not trivial: a hash value depends on one value of SHA-256, and not on none. -/
example : Asks 1 0 (fun S => S.hash [1]) ∧ ¬ Asks 0 0 (fun S => S.hash [1]) := by
  constructor
  · intro S
    exact ⟨[[1]], Nat.le_refl _, by decide, fun S' h => h _ (List.mem_singleton_self _)⟩
  · intro h
    obtain ⟨L, h1, _, h3⟩ := h ⟨fun _ => List.replicate 32 0, fun _ => rfl⟩
    have hL : L = [] := List.eq_nil_of_length_eq_zero (by omega)
    subst hL
    have := h3 ⟨fun _ => List.replicate 32 1, fun _ => rfl⟩ (by intro x hx; cases hx)
    simp at this

example : verifyHashes 16 = 3400 ∧ leafHashes 16 = 3347 ∧ signHashes 16 = 3085 ∧ stepHashes 16 10 = 16915 := by decide +kernel

theorem cost_of {w : Nat} {p : WotsParams} {k q : Nat} (hp : SpecParams w p k q) : leafCost p = leafHashes w ∧
    p.len + 3 * (p.w - 1) * p.len = wotsHashes w ∧ p.len = lenW w ∧ p.w = w := by
  have e : p.len = lenW w := by rw [lenW, hp.l1, hp.l2, hp.good.len]
  refine ⟨?_, ?_, e, hp.pw⟩
  · rw [leafCost, leafHashes, wotsHashes, e, hp.pw]
  · rw [wotsHashes, e, hp.pw]

/-- C76. Whatever message, signature and key are given, `verify` depends on at most `verifyHashes w` values of SHA-256 (3400 with
the default `w = 16`), and at most one of them at an input of more than 128 bytes: the message is hashed once. -/
theorem C76_verify (msg sig epk : Bytes) (w : Nat) (hw : w = 2 ∨ w = 4 ∨ w = 16 ∨ w = 256) :
    Asks (verifyHashes w) 1 (fun S => verify S msg sig epk w) := by
  have hz : ∀ {α : Type} (a : α), Asks (verifyHashes w) 1 (fun _ => a) := fun a => (Asks.const a).mono (by omega) (by omega)
  have key : Asks (verifyHashes w) 1 (fun S => verifyFull S msg sig epk w) := by
    simp only [verifyFull]
    refine Asks.catchInvalid _ (Asks.ite _ (fun _ => hz _) (fun hl => Asks.bind0 _ (fun base _ => Asks.ite _ (fun _ => hz _)
      (fun _ => Asks.bind0 _ (fun desc hd => Asks.ite _ (fun _ => hz _) (fun _ => Asks.bind0 _ (fun height _ =>
      Asks.ite _ (fun _ => hz _) (fun hh => Asks.ite _ (fun _ => hz _) (fun hg => Asks.bind0 _ (fun p hp => ?_))))))))))
    have hh30 : height.toNat ≤ 30 := by
      have e : desc.height = height := Classical.byContradiction fun h => hh (Or.inr h)
      rw [← e]
      rw [Descriptor.fromExtendedPK, if_neg hl] at hd
      match epk, hd with
      | b0 :: b1 :: b2 :: rest, hd =>
        rw [show (b0 :: b1 :: b2 :: rest).take descriptorSize = [b0, b1, b2] from rfl, fromBytes_three] at hd
        cases hd
        simp only [UInt8.toNat_ofNat']
        omega
    obtain ⟨hp1, hp2⟩ : wotsSetParams w = ok p.wots ∧ p.h = height.toNat := by
      rw [xmssSetParams, if_neg hg] at hp
      obtain ⟨wp, h1, h2⟩ := bind_eq_ok.mp hp
      cases h2
      exact ⟨h1, rfl⟩
    obtain ⟨k, q, hsp⟩ := specParams_of hw hp1
    obtain ⟨_, _, e3, e4⟩ := cost_of hsp
    refine Asks.withHash _ (fun hf => ?_)
    refine Asks.mono (Asks.bind (m := 0) (c := 0) (Asks.xmssVerifysig hf p.wots msg sig (epk.drop 3) height.toNat) (fun y => Asks.const _))
      ?_ (Nat.le_refl _)
    rw [e3, e4, verifyHashes]
    generalize 3 * (w - 1) * lenW w = A
    generalize lenW w = B
    omega
  simp only [verify]
  exact Asks.bind (g := fun _ y => ok y.1) (m := 0) (c := 0) key (fun y => Asks.const _)

/-- C76. `XmssFast(seed, height, …)` depends on at most `2^height` leaves with one tree node each. -/
theorem C76_fast_new (seed : Bytes) (height : UInt8) (hf af : Nat) :
    Asks (2 ^ height.toNat * (leafHashes 16 + 4)) 0 (fun S => XmssFast.new S seed height hf af) := by
  have e2 : leafHashes 16 = leafCost ⟨64, 3, 67, 16, 4, 2144⟩ := by decide +kernel
  have key : ∀ p : XmssParams, p.h = height.toNat → p.wots = ⟨64, 3, 67, 16, 4, 2144⟩ → Asks (2 ^ height.toNat * (leafHashes 16 + 4)) 0
      (fun S => withHash hf fun f => xmssfastGenkeypair S f p (List.replicate 132 0) (bdsInit height.toNat) seed >>= fun y =>
        ok (p, y.1, y.2)) := by
    intro p h1 h2
    rw [e2, ← h2, ← h1]
    refine Asks.withHash hf (fun f => ?_)
    exact Asks.bind (m := 0) (c := 0) (Asks.xmssfastGenkeypair f p (List.replicate 132 0) (bdsInit p.h) seed) (fun y => Asks.const _)
  clear e2
  generalize 2 ^ height.toNat * (leafHashes 16 + 4) = N at key ⊢
  simp only [XmssFast.new, XmssFast.build]
  refine Asks.bind0 _ (fun _ _ => Asks.ite _ (fun _ => (Asks.const _).mono (by omega) (by omega)) (fun hg => ?_))
  refine Asks.bind (m := 0) (c := 0) ?_ (fun y => Asks.const _)
  simp only [initTree]
  refine Asks.bind0 _ (fun p hp => key p ?_ ?_)
  all_goals
    rw [xmssSetParams, if_neg hg, params16] at hp
    cases hp; rfl

section
variable {S : Sha256} {seed : Bytes} {height : UInt8} {hf af : Nat} {o0 : XmssFast}
    (hnew : XmssFast.new S seed height hf af = ok o0) {cs : List Call} {rs : List Reply} {o : XmssFast}
    (hrun : runCalls (XmssFast.call S) o0 cs = some (rs, o))
include hnew hrun

/-- What the cost of a call depends on. -/
theorem fast_cost : ∃ (f : HashFn) (p : XmssParams) (i : Nat), HashFn.ofNat? o.hashFunction = some f ∧ o.params = p ∧ p.h = height.toNat ∧
    GoodHeight height ∧
    leafCost p.wots = leafHashes 16 ∧ p.wots.len + 3 * (p.wots.w - 1) * p.wots.len = wotsHashes 16 ∧
    o.getIndex = ok i ∧ be32At o.sk = ok i ∧ o.state.stacklevels.length = height.toNat + 1 ∧ i ≤ 2 ^ height.toNat ∧
    (i < 2 ^ height.toNat → o.setIndex S i = .ret i o) ∧
    (2 ^ height.toNat ≤ i → o.setIndex S i = .raise .invalidArgument o) := by
  obtain ⟨f, p, k, q, i, hf1, hf2, hg, hs, rfl, e2, e5, hp, H, hi, hgi, _, _, rfl⟩ := fast_reach hnew hrun
  obtain ⟨c1, c2, _, _⟩ := cost_of H.hp
  have hlt := H.pow_lt
  obtain ⟨T, hT⟩ := H.adv (min i (2 ^ o0.height.toNat - 1)) (by have := Nat.two_pow_pos o0.height.toNat; omega)
  refine ⟨f, ⟨p, o0.height.toNat⟩, i, ?_, e5, rfl, hg, c1, c2, hgi, ?_, hT.th.llevels, hi,
    fun h => H.setIndex_ok i i (Nat.le_refl _) h, fun h => H.setIndex_throw i i hi (Or.inl h)⟩
  · exact (congrArg HashFn.ofNat? e2).trans hf2
  · exact (keyOf S f 16 o0.height.toNat (lenW_pos (by omega)) seed).idx i (by omega)

/-- C76. After any history on a new `XmssFast`, `setIndex(n)` depends on at most `stepHashes` values for each index skipped, and on
none if it moves nowhere or throws. -/
theorem C76_fast_set_index (i : Nat) (hi : o.getIndex = ok i) (n : Nat) :
    Asks ((n - i) * stepHashes 16 height.toNat) 0 (fun S' => o.setIndex S' n) := by
  obtain ⟨f, p, i', h1, h2, h3, h4, h5, h6, h7, h8, h9, h10, h11, h12⟩ := fast_cost hnew hrun
  have ei : i' = i := by rw [h7] at hi; injection hi
  have e : roundCost p o.state.stacklevels.length = stepHashes 16 height.toNat := by
    rw [roundCost, stepHashes, h3, h5, h9, Nat.shiftRight_eq_div_pow, show (height.toNat - 2) / 2 ^ 1 = height.toNat / 2 - 1 by omega]
  rw [← e, ← h2]
  simp only [XmssFast.setIndex, h1]
  rw [ei] at h8
  exact Asks.map (fun x : Step (Bytes × BdsState) Int => (match x with
    | .ret _ s => Step.ret n { o with sk := s.1, state := s.2 }
    | .raise e s => Step.raise e { o with sk := s.1, state := s.2 }
    | .ub => Step.ub : Step XmssFast Nat)) (Asks.xmssfastUpdate f o.params (o.sk, o.state) n i h8)

/-- C76. After any history on a new `XmssFast`, `sign` depends on at most `signHashes + stepHashes` values, whatever the index, and
at most one of them at an input of more than 128 bytes: the message is hashed once. -/
theorem C76_fast_sign (msg : Bytes) :
    Asks (signHashes 16 + stepHashes 16 height.toNat) 1 (fun S' => o.sign S' msg) := by
  obtain ⟨f, p, i, h1, h2, h3, h4, h5, h6, h7, h8, h9, h10, h11, h12⟩ := fast_cost hnew hrun
  have hset := C76_fast_set_index hnew hrun i h7 i
  have e : roundCost p o.state.stacklevels.length = stepHashes 16 height.toNat := by
    rw [roundCost, stepHashes, h3, h5, h9, Nat.shiftRight_eq_div_pow, show (height.toNat - 2) / 2 ^ 1 = height.toNat / 2 - 1 by omega]
  rw [Nat.sub_self, Nat.zero_mul] at hset
  have hc : ∀ S', o.setIndex S' i = o.setIndex S i := by
    intro S'
    obtain ⟨L, hL, _, hS⟩ := hset S
    have hL : L = [] := List.eq_nil_of_length_eq_zero (by omega)
    subst hL
    exact hS S' (by intro x hx; cases hx)
  have hz : ∀ a : Step XmssFast Bytes, Asks (signHashes 16 + stepHashes 16 height.toNat) 1 (fun _ => a) :=
    fun a => (Asks.const a).mono (by omega) (by omega)
  have h7' : o.toXmssBase.getIndex = ok i := h7
  simp only [XmssFast.sign, h7']
  cases hsz : o.toXmssBase.getSignatureSize o.params.wots.w with
  | throw e => exact hz _
  | ub => exact hz _
  | ok size =>
    simp only [hc]
    by_cases hlt : i < 2 ^ height.toNat
    · rw [h11 hlt]
      refine Asks.stepOfOutcome o (Asks.withHash _ (fun f => ?_))
      have e1 := Asks.xmssfastSignmsg f o.params o.sk o.state msg
      refine Asks.mono (Asks.bind (m := 0) (c := 0) e1 (fun y => Asks.const _)) ?_ (Nat.le_refl _)
      rw [h2, e, h6, signHashes]
      exact Nat.le_refl _
    · rw [h12 (by omega)]
      exact hz _
end

/-- C76. `XmssBasic(seed, height, …)`. -/
theorem C76_basic_new (seed : Bytes) (height : UInt8) (hf af w : Nat) (hw : w = 2 ∨ w = 4 ∨ w = 16 ∨ w = 256) :
    Asks (2 ^ height.toNat * (leafHashes w + 4)) 0 (fun S => XmssBasic.new S seed height hf af w) := by
  simp only [XmssBasic.new]
  refine Asks.bind0 _ (fun _ _ => Asks.ite _ (fun _ => (Asks.const _).mono (by omega) (by omega)) (fun _ =>
    Asks.ite _ (fun _ => (Asks.const _).mono (by omega) (by omega)) (fun hg => Asks.bind0 _ (fun p hp => ?_))))
  obtain ⟨hp1, hp2⟩ : wotsSetParams w = ok p.wots ∧ p.h = height.toNat := by
    rw [xmssSetParams, if_neg hg] at hp
    obtain ⟨wp, h1, h2⟩ := bind_eq_ok.mp hp
    cases h2
    exact ⟨h1, rfl⟩
  obtain ⟨k, q, hsp⟩ := specParams_of hw hp1
  rw [← (cost_of hsp).1, ← hp2]
  refine Asks.withHash _ (fun f => ?_)
  exact Asks.bind (m := 0) (c := 0) (Asks.xmssGenkeypair f p seed) (fun y => Asks.const _)

/-- C76. After any history on a new `XmssBasic`, `sign` depends on at most the hashes of one signature and of the whole tree: this
signer builds the tree anew for every signature. -/
theorem C76_basic_sign (S : Sha256) (seed : Bytes) (height : UInt8) (hf : HashFn) (af w : Nat)
    (hw : w = 2 ∨ w = 4 ∨ w = 16 ∨ w = 256) (hh : GoodHeight height) (h24 : height.toNat ≤ 24) (o0 : XmssBase)
    (hnew : XmssBasic.new S seed height hf.toNat af w = ok o0) (cs : List Call) (rs : List Reply) (o : XmssBase)
    (hrun : runCalls (XmssBasic.call S) o0 cs = some (rs, o)) (msg : Bytes) :
    Asks (signHashes w + (2 ^ height.toNat * leafHashes w + 4 * (2 ^ height.toNat - 1))) 1 (fun S' => XmssBasic.sign S' o msg) := by
  obtain ⟨p, k, q, i, H, hi, rfl, rfl⟩ := basic_canon S seed height hf af w hw hh h24 o0 hnew cs rs o hrun
  simp only [XmssBasic.sign]
  refine Asks.bind0 _ (fun size _ => Asks.withHash _ (fun f => ?_))
  have e1 := Asks.xmssSignmsg f (basicAt (keyOf S hf w o0.height.toNat (lenW_pos hw) seed) o0 i).params
    (basicAt (keyOf S hf w o0.height.toNat (lenW_pos hw) seed) o0 i).sk msg
  have e2 : (basicAt (keyOf S hf w o0.height.toNat (lenW_pos hw) seed) o0 i).params = ⟨p, o0.height.toNat⟩ := H.hop
  refine Asks.mono (Asks.bind (m := 0) (c := 0) e1 (fun y => Asks.const _)) ?_ (Nat.le_refl _)
  rw [e2]
  simp only
  rw [(cost_of H.hp).1, (cost_of H.hp).2.1, signHashes]
  exact Nat.le_refl _

/-- C76. The Rust `verify` too: its verdict depends on no more values of SHA-256 than the C++ one. -/
theorem C76_rust_verify (b : Rs.Build) (msg sig epk : Bytes) (w : Nat) (hw : w = 2 ∨ w = 4 ∨ w = 16 ∨ w = 256) (hf : HashFn)
    (hh : HashFn.ofNat? (keyHash epk) = some hf) (hm : rustShort hf msg) :
    Asks (verifyHashes w) 1 (fun S => decide (Rs.verify b S msg sig epk w = .ret () msg)) := by
  by_cases hfm : (epk.getD 1 0).toNat / 16 = 0
  · have e : (fun S => decide (Rs.verify b S msg sig epk w = .ret () msg)) = fun S => decide (verify S msg sig epk w = .ok true) := by
      funext S
      rw [decide_eq_decide]
      exact C53_agrees_short b S msg sig epk w hw hfm hf hh hm
    rw [e]
    exact Asks.map (fun x => decide (x = Outcome.ok true)) (C76_verify msg sig epk w hw)
  · have e : (fun S => decide (Rs.verify b S msg sig epk w = .ret () msg)) = fun _ => false := by
      funext S
      rw [decide_eq_false_iff_not, C53_accepts_iff b S msg sig epk w hw]
      exact fun h => hfm h.1
    rw [e]
    exact (Asks.const _).mono (by omega) (by omega)

/-! ## Examples -/

/-- A wallet of height 10 after a few calls: one more signature looks at no more than 20000 values of SHA-256. -/
example : ∃ o0, XmssFast.new toySha zeroSeed 10 0 0 = ok o0 ∧ ∀ cs rs o, runCalls (XmssFast.call toySha) o0 cs = some (rs, o) →
    ∀ msg, Asks 20000 1 (fun S' => o.sign S' msg) := by
  obtain ⟨o0, h⟩ := (C39_fast_succeeds toySha zeroSeed 10 0 0).mpr ⟨rfl, by unfold GoodHeight; decide, by omega⟩
  refine ⟨o0, h, fun cs rs o hr msg => ?_⟩
  have e := C76_fast_sign h hr msg
  rw [show signHashes 16 + stepHashes 16 (UInt8.toNat 10) = 20000 by decide +kernel] at e
  exact e

/-- `setIndex` over three indices. -/
example : ∃ o0, XmssFast.new toySha zeroSeed 4 0 0 = ok o0 ∧ Asks 20154 0 (fun S' => o0.setIndex S' 3) := by
  obtain ⟨o0, h⟩ := (C39_fast_succeeds toySha zeroSeed 4 0 0).mpr ⟨rfl, goodHeight4, by omega⟩
  obtain ⟨_, _, f, _, _, _, _, _, _, p, k, q, _, _, H⟩ := fast_fresh h
  have h0 : o0.getIndex = ok 0 := KeyParts.getIndex _ _ 0 H.hsk (by omega)
  refine ⟨o0, h, ?_⟩
  have e := C76_fast_set_index h (cs := []) rfl 0 h0 3
  rw [show (3 - 0) * stepHashes 16 (UInt8.toNat 4) = 20154 by decide +kernel] at e
  exact e

/-- What the constructors cost: 16 leaves. -/
example : Asks 53616 0 (fun S => XmssFast.new S zeroSeed 4 0 0) ∧ Asks 53616 0 (fun S => XmssBasic.new S zeroSeed 4 0 0 16) :=
  ⟨(C76_fast_new zeroSeed 4 0 0).mono (by decide +kernel) (Nat.le_refl _),
    (C76_basic_new zeroSeed 4 0 0 16 (by omega)).mono (by decide +kernel) (Nat.le_refl _)⟩

/-- A key of hash function 0 and height 4, and a signature of the right size: verified with at most 3400 hashes. -/
example (b : Rs.Build) : Asks 3400 1 (fun S => verify S [1, 2, 3] (List.replicate 2308 7) ([0, 2, 0] ++ List.replicate 64 9) 16) ∧
    Asks 3400 1 (fun S => decide (Rs.verify b S [1, 2, 3] (List.replicate 2308 7) ([0, 2, 0] ++ List.replicate 64 9) 16 =
      .ret () [1, 2, 3])) := by
  have e : verifyHashes 16 = 3400 := by decide +kernel
  constructor
  · rw [← e]; exact C76_verify _ _ _ 16 (by omega)
  · rw [← e]; exact C76_rust_verify b _ _ _ 16 (by omega) .sha2_256 (by decide +kernel) (by simp [rustShort])

example (S : Sha256) : ∃ o0, XmssBasic.new S zeroSeed 4 0 0 16 = ok o0 ∧ ∀ msg, Asks 56697 1 (fun S' => XmssBasic.sign S' o0 msg) := by
  obtain ⟨p, k, q, hp, _, _, h⟩ := basicNew_eq S zeroSeed 4 .sha2_256 0 16 (by omega) rfl goodHeight4
  refine ⟨_, h, fun msg => ?_⟩
  have e := C76_basic_sign S zeroSeed 4 .sha2_256 0 16 (by omega) goodHeight4 (by decide) _ h [] [] _ rfl msg
  exact e.mono (by decide +kernel) (Nat.le_refl _)

end Qrl.Props
