import Verif.Proof.Counter
import Verif.Props.Basic
/-!
# The fast signer `XmssFast`: C09, C12, C14–C17, C19, C26, C27, C36, C39, C43, C44

`XmssFast.new` is the constructor from a seed; the constructor from an extended seed is the same object
(`C09_extended_seed_constructor`). Histories are lists of `setIndex` and `sign` calls, some of which may throw.
-/

namespace Qrl.Props

open Outcome

/-- Which arguments the constructor refuses, accepts, and mishandles. -/
theorem fast_new_cases (S : Sha256) (seed : Bytes) (height : UInt8) (hf af : Nat) :
    ((seed.length ≠ 48 ∨ height.toNat < 4 ∨ height.toNat % 2 = 1) ∧
      XmssFast.new S seed height hf af = .throw .invalidArgument) ∨
    (seed.length = 48 ∧ GoodHeight height ∧ hf ≤ 2 ∧ ∃ o, XmssFast.new S seed height hf af = ok o) ∨
    (seed.length = 48 ∧ 4 ≤ height.toNat ∧ height.toNat % 2 = 0 ∧ (32 ≤ height.toNat ∨ 3 ≤ hf) ∧
      XmssFast.new S seed height hf af = .ub) := by
  obtain ⟨p, k, q, hp, hsp, h1, h2, hk, hb⟩ := base_ok (w := 16) (by omega)
  have hu := height.toNat_lt
  by_cases hs : seed.length = 48
  swap
  · exact Or.inl ⟨Or.inl hs, by simp [XmssFast.new, baseCtorCheck, hs]⟩
  by_cases h254 : height.toNat > 254
  · exact Or.inl ⟨Or.inr (Or.inr (by omega)), by simp [XmssFast.new, baseCtorCheck, hs, h254]⟩
  have e0 : XmssFast.new S seed height hf af = XmssFast.build S seed height hf af := by
    simp [XmssFast.new, baseCtorCheck, hs, h254]
  rw [e0]
  by_cases hc : 2 ≥ height.toNat ∨ (height.toNat - 2) % 2 ≠ 0
  · exact Or.inl ⟨Or.inr (by omega), by rw [XmssFast.build, if_pos hc]⟩
  have e1 : XmssFast.build S seed height hf af = (withHash hf fun f => do
      let (sk, st) ← xmssfastGenkeypair S f ⟨p, height.toNat⟩ (List.replicate 132 0) (bdsInit height.toNat) seed
      ok { params := ⟨p, height.toNat⟩, hashFunction := hf, addrFormat := af, height := height,
           sk := sk, seed := seed, state := st }) := by
    rw [XmssFast.build, if_neg hc, initTree, xmssSetParams, if_neg hc, hp]
    simp only [ok_bind, withHash]
    cases HashFn.ofNat? hf with
    | none => rfl
    | some f =>
      simp only
      cases xmssfastGenkeypair S f ⟨p, height.toNat⟩ (List.replicate 132 0) (bdsInit height.toNat) seed <;> rfl
  rcases Nat.lt_or_ge 2 hf with h3 | h3
  · refine Or.inr (Or.inr ⟨hs, by omega, by omega, Or.inr h3, ?_⟩)
    rw [e1, withHash]
    match hf, h3 with
    | n + 3, _ => rfl
  · rcases Nat.lt_or_ge height.toNat 32 with hlt | hge
    · obtain ⟨f, hf1, hf2⟩ := ofNat?_of_le h3
      subst hf2
      have hg : GoodHeight height := ⟨by omega, by omega, by omega⟩
      obtain ⟨p', k', q', st, _, e, _⟩ := fastBuild_eq S seed height f af hs hg
      exact Or.inr (Or.inl ⟨hs, hg, h3, _, e⟩)
    · refine Or.inr (Or.inr ⟨hs, by omega, by omega, Or.inl hge, ?_⟩)
      obtain ⟨f, hf1, hf2⟩ := ofNat?_of_le h3
      rw [e1, withHash, hf1]
      simp only
      rw [xmssfastGenkeypair, if_neg (by simp only [and_one_eq]; omega), slice_eq_ok (by omega), ok_bind]
      simp only [treehashSetup]
      rw [if_pos hge]
      rfl

/-- C39. The `XmssFast` constructor throws exactly when the seed does not have 48 bytes or the height is not an
even number of at least 4, and the exception is `invalid_argument`. -/
theorem C39_fast_throws (S : Sha256) (seed : Bytes) (height : UInt8) (hf af : Nat) (e : Exc) :
    XmssFast.new S seed height hf af = .throw e ↔
      e = .invalidArgument ∧ (seed.length ≠ 48 ∨ height.toNat < 4 ∨ height.toNat % 2 = 1) := by
  rcases fast_new_cases S seed height hf af with ⟨hc, h⟩ | ⟨hs, hg, _, o, h⟩ | ⟨hs, h4, he, _, h⟩
  · rw [h]
    simp only [Outcome.throw.injEq]
    exact ⟨fun x => ⟨x.symm, hc⟩, fun x => x.1.symm⟩
  · rw [h]
    constructor
    · intro x; cases x
    · rintro ⟨_, x⟩
      obtain ⟨h4, h30, he⟩ := hg
      exfalso
      rcases x with x | x | x
      · exact x hs
      · omega
      · omega
  · rw [h]
    constructor
    · intro x; cases x
    · rintro ⟨_, x⟩
      exfalso
      rcases x with x | x | x
      · exact x hs
      · omega
      · omega

/-- C39. The constructor succeeds exactly for a 48-byte seed, an even height 4..30 and one of the three hash
functions. -/
theorem C39_fast_succeeds (S : Sha256) (seed : Bytes) (height : UInt8) (hf af : Nat) :
    (∃ o, XmssFast.new S seed height hf af = ok o) ↔ seed.length = 48 ∧ GoodHeight height ∧ hf ≤ 2 := by
  rcases fast_new_cases S seed height hf af with ⟨hc, h⟩ | ⟨hs, hg, h3, o, h⟩ | ⟨hs, h4, he, hx, h⟩
  · rw [h]
    constructor
    · rintro ⟨o, x⟩; cases x
    · rintro ⟨a, ⟨b, c, d⟩, _⟩
      exfalso
      rcases hc with hc | hc | hc
      · exact hc a
      · omega
      · omega
  · exact ⟨fun _ => ⟨hs, hg, h3⟩, fun _ => ⟨o, h⟩⟩
  · rw [h]
    constructor
    · rintro ⟨o, x⟩; cases x
    · rintro ⟨a, ⟨b, c, d⟩, f⟩
      exfalso; omega

/-- C39. Even heights from 32 on pass every check, and the constructor then shifts a 32-bit one by 32 or more
(undefined behaviour). -/
theorem C39_fast_tall_refuted (S : Sha256) (seed : Bytes) (height : UInt8) (hf af : Nat) (hs : seed.length = 48)
    (h32 : 32 ≤ height.toNat) (he : height.toNat % 2 = 0) : XmssFast.new S seed height hf af = .ub := by
  rcases fast_new_cases S seed height hf af with ⟨hc, h⟩ | ⟨_, ⟨_, _, _⟩, h3, o, h⟩ | ⟨_, h4, _, hx, h⟩
  · exfalso
    rcases hc with hc | hc | hc
    · exact hc hs
    · omega
    · omega
  · omega
  · exact h

/-- C36. The constructor does not refuse an unsupported hash function (3 or more): it goes on with memory nothing
has written (undefined behaviour). -/
theorem C36_fast_unsupported (S : Sha256) (seed : Bytes) (height : UInt8) (hf af : Nat) (hs : seed.length = 48)
    (h4 : 4 ≤ height.toNat) (he : height.toNat % 2 = 0) (h3 : 3 ≤ hf) : XmssFast.new S seed height hf af = .ub := by
  rcases fast_new_cases S seed height hf af with ⟨hc, h⟩ | ⟨_, ⟨_, _, _⟩, h3, o, h⟩ | ⟨_, h4, _, hx, h⟩
  · exfalso
    rcases hc with hc | hc | hc
    · exact hc hs
    · omega
    · omega
  · omega
  · exact h

/-- What a successful constructor call gives. -/
theorem fast_fresh {S : Sha256} {seed : Bytes} {height : UInt8} {hf af : Nat} {o0 : XmssFast}
    (h : XmssFast.new S seed height hf af = ok o0) :
    seed.length = 48 ∧ GoodHeight height ∧ ∃ f : HashFn, f.toNat = hf ∧ HashFn.ofNat? hf = some f ∧
      o0.height = height ∧ o0.hashFunction = hf ∧
      o0.addrFormat = af ∧ o0.seed = seed ∧
      ∃ p k q, wotsSetParams 16 = ok p ∧ o0.params = ⟨p, height.toNat⟩ ∧
        FastOk S f 16 (keyOf S f 16 height.toNat (lenW_pos (by omega)) seed) p k q o0 := by
  obtain ⟨hs, hg, h3⟩ := (C39_fast_succeeds S seed height hf af).mp ⟨o0, h⟩
  obtain ⟨f, hf1, hf2⟩ := ofNat?_of_le h3
  obtain ⟨h4, h30, he⟩ := id hg
  subst hf2
  obtain ⟨p, k, q, st, hp, e, hok⟩ := fastBuild_eq S seed height f af hs hg
  have e0 : XmssFast.new S seed height f.toNat af = XmssFast.build S seed height f.toNat af := by
    simp [XmssFast.new, baseCtorCheck, hs, show ¬ height.toNat > 254 by omega]
  rw [e0, e] at h
  cases h
  exact ⟨hs, hg, f, rfl, hf1, rfl, rfl, rfl, rfl, p, k, q, hp, rfl, hok⟩

/-- The signature the specification gives for one-time key `i` of the key derived from `seed`. -/
def seedSignature (S : Sha256) (f : HashFn) (w h : Nat) (seed : Bytes) (i : Nat) (msg : Bytes) : Bytes :=
  Spec.signature (f.prim S) w h ((shake256 96 seed).take 32) (((shake256 96 seed).drop 32).take 32)
    ((shake256 96 seed).drop 64) i msg

/-- **Refinement** (C12, C16, C17, C19, C43 follow). On any history of calls, a fresh `XmssFast` behaves exactly
like the ideal counter: same replies, never undefined behaviour, and its index is the counter. -/
theorem C19_fast_refines_counter (S : Sha256) (seed : Bytes) (height : UInt8) (hf : HashFn) (af : Nat)
    (o0 : XmssFast) (hnew : XmssFast.new S seed height hf.toNat af = ok o0) (cs : List Call) :
    ∃ o, runCalls (XmssFast.call S) o0 cs =
        some ((Spec.counterRun (2 ^ height.toNat) (seedSignature S hf 16 height.toNat seed) 0 cs).1, o) ∧
      o.getIndex = ok (Spec.counterRun (2 ^ height.toNat) (seedSignature S hf 16 height.toNat seed) 0 cs).2 := by
  obtain ⟨hs, hg, f, hf1, hf2, rfl, e2, e3, e4, p, k, q, hp, e5, H⟩ := fast_fresh hnew
  rw [ofNat?_toNat] at hf2
  cases hf2
  have hr := H.run cs 0 (Nat.zero_le _)
  rw [fastAt_zero H] at hr
  refine ⟨_, hr, ?_⟩
  have := counterRun_range (2 ^ o0.height.toNat) (seedSignature S hf 16 o0.height.toNat seed) cs 0 (Nat.zero_le _)
  exact H.getIndex _ this.2

/-- Every state a history reaches is the canonical state at its index. -/
theorem fast_reach {S : Sha256} {seed : Bytes} {height : UInt8} {hf af : Nat} {o0 : XmssFast}
    (h : XmssFast.new S seed height hf af = ok o0) {cs : List Call} {rs : List Reply} {o : XmssFast}
    (hrun : runCalls (XmssFast.call S) o0 cs = some (rs, o)) :
    ∃ (f : HashFn) (p : WotsParams) (k q i : Nat), f.toNat = hf ∧ HashFn.ofNat? hf = some f ∧ GoodHeight height ∧
      seed.length = 48 ∧ o0.height = height ∧
      o0.hashFunction = hf ∧ o0.params = ⟨p, height.toNat⟩ ∧ wotsSetParams 16 = ok p ∧
      FastOk S f 16 (keyOf S f 16 height.toNat (lenW_pos (by omega)) seed) p k q o0 ∧ i ≤ 2 ^ height.toNat ∧
      o.getIndex = ok i ∧ rs = (Spec.counterRun (2 ^ height.toNat) (seedSignature S f 16 height.toNat seed) 0 cs).1 ∧
      i = (Spec.counterRun (2 ^ height.toNat) (seedSignature S f 16 height.toNat seed) 0 cs).2 ∧
      o = fastAt S f (keyOf S f 16 height.toNat (lenW_pos (by omega)) seed) o0 i := by
  obtain ⟨hs, hg, f, hf1, hf2, rfl, e2, e3, e4, p, k, q, hp, e5, H⟩ := fast_fresh h
  have hr := H.run cs 0 (Nat.zero_le _)
  rw [fastAt_zero H, hrun] at hr
  have hle := counterRun_range (2 ^ o0.height.toNat) (seedSignature S f 16 o0.height.toNat seed) cs 0 (Nat.zero_le _)
  injection hr with hr
  injection hr with hr1 hr2
  refine ⟨f, p, k, q, _, hf1, hf2, hg, hs, rfl, e2, e5, hp, H, hle.2, ?_, hr1, rfl, hr2⟩
  rw [hr2]
  exact H.getIndex _ hle.2

/-- C19. No history of calls on a fresh `XmssFast` is ever undefined: no access outside a traversal buffer, no use
of a node that was not computed. -/
theorem C19_fast_defined (S : Sha256) (seed : Bytes) (height : UInt8) (hf af : Nat) (o0 : XmssFast)
    (hnew : XmssFast.new S seed height hf af = ok o0) (cs : List Call) :
    ∃ rs o, runCalls (XmssFast.call S) o0 cs = some (rs, o) ∧ rs.length = cs.length := by
  obtain ⟨hs, hg, f, hf1, hf2, rfl, e2, e3, e4, p, k, q, hp, e5, H⟩ := fast_fresh hnew
  have hr := H.run cs 0 (Nat.zero_le _)
  rw [fastAt_zero H] at hr
  refine ⟨_, _, hr, ?_⟩
  have : ∀ (cs : List Call) (i : Nat) (σ : Nat → Bytes → Bytes),
      (Spec.counterRun (2 ^ o0.height.toNat) σ i cs).1.length = cs.length := by
    intro cs
    induction cs with
    | nil => intro i σ; rfl
    | cons c cs ih => intro i σ; simp only [Spec.counterRun, List.length_cons, ih]
  exact this cs 0 _

/-- C12, C15, C22, C27. After any history (with throwing calls too), if the index `i` is below `2^height` then
`sign` succeeds; the signature is the specified XMSS signature under one-time key `i`, has `getSignatureSize`
bytes, starts with `i`, and verifies under `getPK()`; the index becomes `i + 1`. -/
theorem C12_fast_sign_verifies (S : Sha256) (seed : Bytes) (height : UInt8) (hf af : Nat) (o0 : XmssFast)
    (hnew : XmssFast.new S seed height hf af = ok o0) (cs : List Call) (rs : List Reply) (o : XmssFast)
    (hrun : runCalls (XmssFast.call S) o0 cs = some (rs, o)) (i : Nat) (hi : o.getIndex = ok i)
    (hlt : i < 2 ^ height.toNat) (msg : Bytes) :
    ∃ f sig o' pk, HashFn.ofNat? hf = some f ∧ o.sign S msg = .ret sig o' ∧
      sig = seedSignature S f 16 height.toNat seed i msg ∧
      o.getSignatureSize 16 = ok sig.length ∧ sigIndex sig = i ∧
      o.getPK = ok pk ∧ verify S msg sig pk 16 = ok true ∧ o'.getIndex = ok (i + 1) := by
  obtain ⟨f, p, k, q, j, hf1, hf2, hg, hs, rfl, e2, e5, hp, H, hj, hgi, _, _, rfl⟩ := fast_reach hnew hrun
  rw [hgi] at hi
  cases hi
  have h32 := H.pow_lt
  obtain ⟨pk, hpk, hv⟩ := verify_honest S f (w := 16) (by omega)
    (keyOf S f 16 o0.height.toNat (lenW_pos (by omega)) seed)
    (fastAt S f (keyOf S f 16 o0.height.toNat (lenW_pos (by omega)) seed) o0 i).toXmssBase i rfl H.hof H.hh H.hroot i
    hlt msg
  refine ⟨f, _, _, pk, hf2, H.sign_ok i hlt msg, rfl, ?_, ?_, hpk, hv, ?_⟩
  · rw [C22_signature_size _ 16 (by omega), length_signature S f H.hp H.hlen, H.hp.len]; rfl
  · exact sigIndex_signature S f 16 _ _ _ _ i msg (by omega)
  · exact H.getIndex (i + 1) hlt

/-- C15 (fast signer). A fresh object's secret key is index 0 ‖ 96 bytes of SHAKE256 of the seed ‖ root of the XMSS
tree over those secrets, in the sense of the specification. -/
theorem C15_fast_key (S : Sha256) (seed : Bytes) (height : UInt8) (hf : HashFn) (af : Nat) (o0 : XmssFast)
    (hnew : XmssFast.new S seed height hf.toNat af = ok o0) :
    o0.height = height ∧ o0.hashFunction = hf.toNat ∧ o0.addrFormat = af ∧ o0.seed = seed ∧
      o0.sk = [0, 0, 0, 0] ++ shake256 96 seed ++
        Spec.node (hf.prim S) 16 (Spec.lenW 16) ((shake256 96 seed).take 32) ((shake256 96 seed).drop 64)
          height.toNat 0 := by
  obtain ⟨hs, hg, f, hf1, hf2, rfl, e2, e3, e4, p, k, q, hp, e5, H⟩ := fast_fresh hnew
  rw [ofNat?_toNat] at hf2
  cases hf2
  refine ⟨rfl, e2, e3, e4, ?_⟩
  rw [H.hsk]
  exact (keyOf_sk0 S hf 16 o0.height.toNat (lenW_pos (by omega)) seed 0).symm

/-- C16. Over any history the one-time key indices in the returned signatures are strictly increasing (so never
equal), and below `2^height`. -/
theorem C16_fast_no_reuse (S : Sha256) (seed : Bytes) (height : UInt8) (hf af : Nat) (o0 : XmssFast)
    (hnew : XmssFast.new S seed height hf af = ok o0) (cs : List Call) (rs : List Reply) (o : XmssFast)
    (hrun : runCalls (XmssFast.call S) o0 cs = some (rs, o)) :
    ((signatures rs).map sigIndex).Pairwise (· < ·) ∧ ∀ s ∈ signatures rs, sigIndex s < 2 ^ height.toNat := by
  obtain ⟨f, p, k, q, j, hf1, hf2, hg, hs, rfl, e2, e5, hp, H, hj, hgi, rfl, rfl, _⟩ := fast_reach hnew hrun
  have h32 := H.pow_lt
  obtain ⟨h1, h2⟩ := counterRun_indices (2 ^ o0.height.toNat) (seedSignature S f 16 o0.height.toNat seed) sigIndex
    (fun i m hi => sigIndex_signature S f 16 _ _ _ _ i m (by omega)) cs 0 (Nat.zero_le _)
  exact ⟨h1, fun s hs => by have := (h2 s hs).2; omega⟩

/-- C17, C27. At every reachable state, `setIndex(n)` throws `invalid_argument` and leaves the object as it was if
`n ≥ 2^height` or `n` is below the index; otherwise it returns `n` and `getIndex()` is `n`. -/
theorem C17_fast_setIndex (S : Sha256) (seed : Bytes) (height : UInt8) (hf af : Nat) (o0 : XmssFast)
    (hnew : XmssFast.new S seed height hf af = ok o0) (cs : List Call) (rs : List Reply) (o : XmssFast)
    (hrun : runCalls (XmssFast.call S) o0 cs = some (rs, o)) (i : Nat) (hi : o.getIndex = ok i) (n : Nat) :
    if 2 ^ height.toNat ≤ n ∨ n < i then o.setIndex S n = .raise .invalidArgument o
    else ∃ o', o.setIndex S n = .ret n o' ∧ o'.getIndex = ok n := by
  obtain ⟨f, p, k, q, j, hf1, hf2, hg, hs, rfl, e2, e5, hp, H, hj, hgi, _, _, rfl⟩ := fast_reach hnew hrun
  rw [hgi] at hi
  cases hi
  by_cases hc : 2 ^ o0.height.toNat ≤ n ∨ n < i
  · rw [if_pos hc]; exact H.setIndex_throw i n hj hc
  · rw [if_neg hc]
    exact ⟨_, H.setIndex_ok i n (by omega) (by omega), H.getIndex n (by omega)⟩

/-- C17. At every reachable state, `sign` throws exactly when the index is `2^height` (`invalid_argument`, object
unchanged); otherwise it returns. The index never exceeds `2^height`, and `getRemainingSignatures()` is the true
difference. -/
theorem C17_fast_exhaustion (S : Sha256) (seed : Bytes) (height : UInt8) (hf af : Nat) (o0 : XmssFast)
    (hnew : XmssFast.new S seed height hf af = ok o0) (cs : List Call) (rs : List Reply) (o : XmssFast)
    (hrun : runCalls (XmssFast.call S) o0 cs = some (rs, o)) :
    ∃ i, o.getIndex = ok i ∧ i ≤ 2 ^ height.toNat ∧ o.getRemainingSignatures = ok (2 ^ height.toNat - i) ∧
      ∀ msg, if i = 2 ^ height.toNat then o.sign S msg = .raise .invalidArgument o
        else ∃ sig o', o.sign S msg = .ret sig o' := by
  obtain ⟨f, p, k, q, j, hf1, hf2, hg, hs, rfl, e2, e5, hp, H, hj, hgi, _, _, rfl⟩ := fast_reach hnew hrun
  have h32 := H.pow_lt
  refine ⟨j, hgi, hj, ?_, ?_⟩
  · have h30 := hg.2.1
    rw [XmssBase.getRemainingSignatures, XmssBase.getNumberSignatures, hgi]
    rw [show (fastAt S f (keyOf S f 16 o0.height.toNat (lenW_pos (by omega)) seed) o0 j).height = o0.height from rfl]
    rw [if_neg (by omega), ok_bind, ok_bind, sub32]
    congr 1
    rw [Nat.mod_eq_of_lt (a := j) (by omega)]
    omega
  · intro msg
    by_cases hc : j = 2 ^ o0.height.toNat
    · rw [if_pos hc]
      have := H.sign_throw msg
      rw [← hc] at this
      exact this
    · rw [if_neg hc]
      exact ⟨_, _, H.sign_ok j (by omega) msg⟩

/-- C17. At most `2^height` signatures can ever be obtained from one object. -/
theorem C17_fast_at_most (S : Sha256) (seed : Bytes) (height : UInt8) (hf af : Nat) (o0 : XmssFast)
    (hnew : XmssFast.new S seed height hf af = ok o0) (cs : List Call) (rs : List Reply) (o : XmssFast)
    (hrun : runCalls (XmssFast.call S) o0 cs = some (rs, o)) : (signatures rs).length ≤ 2 ^ height.toNat := by
  obtain ⟨h1, h2⟩ := C16_fast_no_reuse S seed height hf af o0 hnew cs rs o hrun
  have := pairwise_lt_length ((signatures rs).map sigIndex) 0 (2 ^ height.toNat) h1 (by
    intro x hx
    rw [List.mem_map] at hx
    obtain ⟨s, hs, rfl⟩ := hx
    exact ⟨Nat.zero_le _, h2 s hs⟩) (Nat.zero_le _)
  simpa using this

/-- C17. `2^height` calls of `sign` on a fresh object all succeed: the `i`-th returns the signature under one-time
key `i`; after them the object is exhausted. -/
theorem C17_fast_all_used (S : Sha256) (seed : Bytes) (height : UInt8) (hf : HashFn) (af : Nat) (o0 : XmssFast)
    (hnew : XmssFast.new S seed height hf.toNat af = ok o0) (ms : List Bytes) (hl : ms.length = 2 ^ height.toNat) :
    ∃ rs o, runCalls (XmssFast.call S) o0 (ms.map Call.sign) = some (rs, o) ∧
      signatures rs = ms.zipIdx.map (fun x => seedSignature S hf 16 height.toNat seed x.2 x.1) ∧
      (signatures rs).length = 2 ^ height.toNat ∧ o.getIndex = ok (2 ^ height.toNat) := by
  obtain ⟨o, h1, h2⟩ := C19_fast_refines_counter S seed height hf af o0 hnew (ms.map Call.sign)
  rw [counterRun_signs _ _ ms 0 (by omega)] at h1 h2
  have hsig : ∀ (l : List (Bytes × Nat)) (g : Bytes × Nat → Bytes), signatures (l.map fun x => Reply.sig (g x)) =
      l.map g := by
    intro l g
    induction l with
    | nil => rfl
    | cons a l ih => simp only [List.map_cons, signatures, ih]
  refine ⟨_, o, h1, hsig _ _, ?_, ?_⟩
  · rw [hsig]; simp [hl]
  · rw [h2]; simp [hl]

/-- C14. For the same arguments `XmssBasic` (with `w = 16`) builds the same base object as `XmssFast`: same secret key,
hence the same public key, address and extended seed. -/
theorem C14_same_key (S : Sha256) (seed : Bytes) (height : UInt8) (hf af : Nat) (o0 : XmssFast)
    (hnew : XmssFast.new S seed height hf af = ok o0) :
    XmssBasic.new S seed height hf af 16 = ok o0.toXmssBase := by
  obtain ⟨hs, hg, f, hf1, hf2, e1, e2, e3, e4, p, k, q, hp, e5, H⟩ := fast_fresh hnew
  subst hf1
  obtain ⟨p', k', q', hp', _, _, e⟩ := basicNew_eq S seed height f af 16 (by omega) hs hg
  rw [e]
  have hpp : p' = p := by
    have hx : XmssBasic.new S seed height f.toNat af 16 = XmssBasic.new S seed height f.toNat af 16 := rfl
    obtain ⟨h4, h30, he⟩ := hg
    have hc : ¬ (2 ≥ height.toNat ∨ (height.toNat - 2) % 2 ≠ 0) := by omega
    conv at hx => lhs; rw [e]
    simp only [XmssBasic.new, baseCtorCheck, hs, ne_eq, not_true, if_false, show ¬ height.toNat > 254 by omega,
      ok_bind] at hx
    rw [if_neg hc, xmssSetParams, if_neg hc, hp, ok_bind, ok_bind, withHash_toNat] at hx
    cases hg : xmssGenkeypair S f ⟨p, height.toNat⟩ seed with
    | ok sk =>
      rw [hg] at hx
      injection hx with hx
      injection hx with hx _
      injection hx
    | throw e => rw [hg] at hx; cases hx
    | ub => rw [hg] at hx; cases hx
  subst hpp
  obtain ⟨⟨a1, a2, a3, a4, a5, a6⟩, a7⟩ := o0
  have hsk := H.hsk
  simp only at *
  subst e1 e2 e3 e4 e5 hsk
  rfl

/-- C14. At the same index the two signers return the same bytes for the same message, however the index was reached
(any two histories), and they stay in step: their key bytes agree again afterwards. -/
theorem C14_same_signatures (S : Sha256) (seed : Bytes) (height : UInt8) (hf af : Nat) (h24 : height.toNat ≤ 24)
    (o0 : XmssFast) (b0 : XmssBase) (hnewF : XmssFast.new S seed height hf af = ok o0)
    (hnewB : XmssBasic.new S seed height hf af 16 = ok b0)
    (csF csB : List Call) (rsF rsB : List Reply) (o : XmssFast) (b : XmssBase)
    (hrunF : runCalls (XmssFast.call S) o0 csF = some (rsF, o))
    (hrunB : runCalls (XmssBasic.call S) b0 csB = some (rsB, b))
    (i : Nat) (hiF : o.getIndex = ok i) (hiB : b.getIndex = ok i) (hlt : i < 2 ^ height.toNat) (msg : Bytes) :
    ∃ sig o' b', o.sign S msg = .ret sig o' ∧ XmssBasic.sign S b msg = ok (sig, b') ∧ o'.toXmssBase = b' := by
  obtain ⟨hs, hg, f, hf1, hf2, e1, e2, e3, e4, p, k, q, hp, e5, H⟩ := fast_fresh hnewF
  have hsame := C14_same_key S seed height hf af o0 hnewF
  rw [hnewB] at hsame
  cases hsame
  subst hf1
  obtain ⟨f', p', k', q', j, hf1', hf2', hg', hs', e1', e2', e5', hp', H', hj, hgi, _, _, rfl⟩ := fast_reach hnewF hrunF
  rw [hf2] at hf2'
  cases hf2'
  rw [hgi] at hiF
  cases hiF
  subst e1
  have h4 := hg.1
  have h25 : 2 ^ o0.height.toNat ≤ 2 ^ 25 := Nat.pow_le_pow_right (by omega) (by omega)
  obtain ⟨j, hj', rfl⟩ := basic_reach S f (by omega) H.hp H.hlen
    (keyOf S f 16 o0.height.toNat (lenW_pos (by omega)) seed) csB o0.toXmssBase 0 rsB b H.hop H.hof
    (by omega) (by omega) H.hroot H.hsk (by omega) hrunB
  rw [KeyParts.getIndex (keyOf S f 16 o0.height.toNat (lenW_pos (by omega)) seed) _ j rfl hj'] at hiB
  cases hiB
  have hb := basicSign_eq S f (w := 16) (by omega) H.hp H.hlen
    { o0.toXmssBase with sk := (keyOf S f 16 o0.height.toNat (lenW_pos (by omega)) seed).sk i } H.hop H.hof
    (show o0.height.toNat ≤ 25 by omega) (keyOf S f 16 o0.height.toNat (lenW_pos (by omega)) seed) H.hroot i hlt rfl msg
  exact ⟨_, _, _, H.sign_ok i hlt msg, hb, rfl⟩

/-- C26, C27. Over any history only the four index bytes of the secret key (and the traversal state) change:
`getPK`, `getAddress`, `getExtendedSeed`, descriptor, height and seed stay the same; the index is the big-endian
number in the first four bytes of the 132-byte secret key. -/
theorem C26_fast_stable (S : Sha256) (seed : Bytes) (height : UInt8) (hf af : Nat) (o0 : XmssFast)
    (hnew : XmssFast.new S seed height hf af = ok o0) (cs : List Call) (rs : List Reply) (o : XmssFast)
    (hrun : runCalls (XmssFast.call S) o0 cs = some (rs, o)) :
    o.toXmssBase = { o0.toXmssBase with sk := o.sk } ∧ o.sk.length = 132 ∧ o.sk.drop 4 = o0.sk.drop 4 ∧
      o.getIndex = ok (Spec.byteVal (o.sk.take 4)) ∧ o.getPK = o0.getPK ∧ o.getAddress S = o0.getAddress S ∧
      o.getExtendedSeed = o0.getExtendedSeed ∧ o.seed = seed ∧ o.height = height := by
  obtain ⟨_, _, _, _, _, e1, e2, e3, e4, _⟩ := fast_fresh hnew
  obtain ⟨f, p, k, q, j, hf1, hf2, hg, hs, rfl, e2, e5, hp, H, hj, hgi, _, _, rfl⟩ := fast_reach hnew hrun
  have h32 := H.pow_lt
  have hpk : (fastAt S f (keyOf S f 16 o0.height.toNat (lenW_pos (by omega)) seed) o0 j).getPK = o0.getPK := by
    rw [getPK_eq (keyOf S f 16 o0.height.toNat (lenW_pos (by omega)) seed) o0.toXmssBase 0 H.hsk,
      getPK_eq (keyOf S f 16 o0.height.toNat (lenW_pos (by omega)) seed) _ j rfl]
    rfl
  refine ⟨rfl, KeyParts.length_sk _ _, ?_, ?_, hpk, ?_, rfl, e4, rfl⟩
  · rw [H.hsk]
    exact ((keyOf S f 16 o0.height.toNat (lenW_pos (by omega)) seed).drop4 j).trans (KeyParts.drop4 _ 0).symm
  · have h1 := KeyParts.idx (keyOf S f 16 o0.height.toNat (lenW_pos (by omega)) seed) j (by omega)
    rw [be32At_eq (by rw [KeyParts.length_sk]; omega)] at h1
    rw [hgi, ← h1]; rfl
  · rw [XmssBase.getAddress, XmssBase.getAddress, hpk]

/-- C26. The layout of keys: `getSK()` is index (4) ‖ SK_SEED (32) ‖ SK_PRF (32) ‖ PUB_SEED (32) ‖ root (32) and
`getPK()` is descriptor (3) ‖ root ‖ PUB_SEED. -/
theorem C26_fast_layout (S : Sha256) (seed : Bytes) (height : UInt8) (hf af : Nat) (o0 : XmssFast)
    (hnew : XmssFast.new S seed height hf af = ok o0) (cs : List Call) (rs : List Reply) (o : XmssFast)
    (hrun : runCalls (XmssFast.call S) o0 cs = some (rs, o)) :
    ∃ skSeed skPrf pubSeed root, o.getSKSeed = ok skSeed ∧ o.getSKPRF = ok skPrf ∧ o.getPKSeed = ok pubSeed ∧
      o.getRoot = ok root ∧ o.sk = o.sk.take 4 ++ skSeed ++ skPrf ++ pubSeed ++ root ∧
      skSeed.length = 32 ∧ skPrf.length = 32 ∧ pubSeed.length = 32 ∧ root.length = 32 ∧
      o.getPK = ok (o.getDescriptorBytes ++ root ++ pubSeed) ∧ o.getDescriptorBytes.length = 3 := by
  obtain ⟨f, p, k, q, j, hf1, hf2, hg, hs, rfl, e2, e5, hp, H, hj, hgi, _, _, rfl⟩ := fast_reach hnew hrun
  have h32 := H.pow_lt
  generalize hK : keyOf S f 16 o0.height.toNat (lenW_pos (by omega)) seed = K
  refine ⟨K.skSeed, K.skPrf, K.ps, K.root, K.seed_slice j, K.prf_slice j, K.ps_slice j, K.root_slice j, ?_, K.l1, K.l2,
    K.l3, K.l4, ?_, ?_⟩
  · show K.sk j = (K.sk j).take 4 ++ _ ++ _ ++ _ ++ _
    have := List.take_append_drop 4 (K.sk j)
    rw [K.drop4] at this
    conv => lhs; rw [← this]
    simp
  · exact getPK_eq K _ j rfl
  · exact length_descBytes _

/-- C43. Two histories from the same fresh object that reach the same index leave equal objects (equal keys and equal
traversal state), so nothing that is done later can tell them apart. -/
theorem C43_history_independent (S : Sha256) (seed : Bytes) (height : UInt8) (hf af : Nat) (o0 : XmssFast)
    (hnew : XmssFast.new S seed height hf af = ok o0) (cs cs' : List Call) (rs rs' : List Reply) (o o' : XmssFast)
    (hrun : runCalls (XmssFast.call S) o0 cs = some (rs, o)) (hrun' : runCalls (XmssFast.call S) o0 cs' = some (rs', o'))
    (hidx : o.getIndex = o'.getIndex) : o = o' := by
  obtain ⟨f, p, k, q, j, hf1, hf2, hg, hs, rfl, e2, e5, hp, H, hj, hgi, _, _, e⟩ := fast_reach hnew hrun
  obtain ⟨f', p', k', q', j', hf1', hf2', hg', hs', _, e2', e5', hp', H', hj', hgi', _, _, e'⟩ := fast_reach hnew hrun'
  rw [hf2] at hf2'
  cases hf2'
  rw [hgi, hgi'] at hidx
  cases hidx
  rw [e, e']

/-- C43. In particular signing and skipping commute: `sign` at index `i` leaves the object that `setIndex(i + 1)` would
leave (for `i + 1 < 2^height`). -/
theorem C43_sign_is_skip (S : Sha256) (seed : Bytes) (height : UInt8) (hf af : Nat) (o0 : XmssFast)
    (hnew : XmssFast.new S seed height hf af = ok o0) (cs : List Call) (rs : List Reply) (o : XmssFast)
    (hrun : runCalls (XmssFast.call S) o0 cs = some (rs, o)) (i : Nat) (hi : o.getIndex = ok i)
    (hlt : i + 1 < 2 ^ height.toNat) (msg : Bytes) :
    ∃ sig o', o.sign S msg = .ret sig o' ∧ o.setIndex S (i + 1) = .ret (i + 1) o' := by
  obtain ⟨f, p, k, q, j, hf1, hf2, hg, hs, rfl, e2, e5, hp, H, hj, hgi, _, _, rfl⟩ := fast_reach hnew hrun
  rw [hgi] at hi
  cases hi
  exact ⟨_, _, H.sign_ok i (by omega) msg, H.setIndex_ok i (i + 1) (by omega) hlt⟩

/-- C09. The extended-seed constructor on 51 bytes is the seed constructor on the last 48 bytes, with the hash
function, height and address format of the first two bytes. -/
theorem C09_extended_seed_constructor (S : Sha256) (b0 b1 b2 : UInt8) (seed : Bytes) (hs : seed.length = 48) :
    XmssFast.fromExtendedSeed S (b0 :: b1 :: b2 :: seed) =
      XmssFast.new S seed (UInt8.ofNat (2 * (b1.toNat % 16))) (b0.toNat % 16) (b1.toNat / 16) := by
  have hlen : (b0 :: b1 :: b2 :: seed).length = 51 := by simp [hs]
  have hh : ¬ (UInt8.ofNat (2 * (b1.toNat % 16))).toNat > 254 := by rw [UInt8.toNat_ofNat']; omega
  have hd : Descriptor.fromExtendedSeed (b0 :: b1 :: b2 :: seed) = ok { hashFunction := b0.toNat % 16, signatureType := 0, height := UInt8.ofNat (2 * (b1.toNat % 16)), addrFormat := b1.toNat / 16 } := by
    rw [Descriptor.fromExtendedSeed, if_neg (by rw [hlen]; omega)]
    exact fromBytes_three b0 b1 b2
  rw [XmssFast.fromExtendedSeed, if_neg (by rw [hlen]; omega), hd, XmssFast.new, baseCtorCheck, if_neg (by omega), if_neg hh]
  rfl

/-- C09. Rebuilding an object from its extended seed gives the object back as it was when fresh, whatever was signed
in between: same keys, address and traversal state. -/
theorem C09_extended_seed_roundtrip (S : Sha256) (seed : Bytes) (height : UInt8) (hf af : Nat) (haf : af < 16)
    (o0 : XmssFast) (hnew : XmssFast.new S seed height hf af = ok o0) (cs : List Call) (rs : List Reply)
    (o : XmssFast) (hrun : runCalls (XmssFast.call S) o0 cs = some (rs, o)) :
    XmssFast.fromExtendedSeed S o.getExtendedSeed = ok o0 := by
  obtain ⟨hs, ⟨h4, h30, he⟩, f, hf1, hf2, e1, e2, e3, e4, _⟩ := fast_fresh hnew
  have hst := (C26_fast_stable S seed height hf af o0 hnew cs rs o hrun).2.2.2.2.2.2.1
  have hn : hf ≤ 2 := by subst hf1; cases f <;> decide
  have : o0.getExtendedSeed = UInt8.ofNat hf :: UInt8.ofNat (16 * af + height.toNat / 2) :: 0 :: seed := by
    rw [XmssBase.getExtendedSeed, XmssBase.getDescriptorBytes, getBytes_eq, XmssBase.getDescriptor, descriptorBytes]
    simp only [e1, e2, e3, e4]
    rw [Nat.mod_eq_of_lt (show hf < 16 by omega), Nat.mod_eq_of_lt (show height.toNat / 2 < 16 by omega),
      show sigTypeXMSS = 0 from rfl, Nat.mul_zero, Nat.zero_add]
    rfl
  rw [hst, this, C09_extended_seed_constructor S _ _ _ seed hs]
  have a1 : UInt8.ofNat (2 * ((UInt8.ofNat (16 * af + height.toNat / 2)).toNat % 16)) = height := by
    apply UInt8.toNat_inj.mp
    simp only [UInt8.toNat_ofNat']
    have := height.toNat_lt
    omega
  have a2 : (UInt8.ofNat hf).toNat % 16 = hf := by simp only [UInt8.toNat_ofNat']; omega
  have a3 : (UInt8.ofNat (16 * af + height.toNat / 2)).toNat / 16 = af := by simp only [UInt8.toNat_ofNat']; omega
  rw [a1, a2, a3]
  exact hnew

/-- C09. Conversely `getExtendedSeed()` of an object built from an extended seed is that extended seed, up to the
signature-type nibble and the third byte, which are not kept. -/
theorem C09_extended_seed_back (S : Sha256) (b0 b1 b2 : UInt8) (seed : Bytes) (o : XmssFast)
    (h : XmssFast.fromExtendedSeed S (b0 :: b1 :: b2 :: seed) = ok o) :
    o.getExtendedSeed = UInt8.ofNat (b0.toNat % 16) :: b1 :: 0 :: seed := by
  have hs : seed.length = 48 := by
    apply Classical.byContradiction
    intro hne
    rw [XmssFast.fromExtendedSeed, if_pos (by simp; omega)] at h
    cases h
  rw [C09_extended_seed_constructor S b0 b1 b2 seed hs] at h
  obtain ⟨_, _, f, hf1, hf2, e1, e2, e3, e4, _⟩ := fast_fresh h
  have hb0 := b0.toNat_lt
  have hb1 := b1.toNat_lt
  rw [XmssBase.getExtendedSeed, XmssBase.getDescriptorBytes, getBytes_eq, XmssBase.getDescriptor, descriptorBytes]
  simp only [e1, e2, e3, e4, show sigTypeXMSS = 0 from rfl, Nat.mul_zero, Nat.zero_add, UInt8.toNat_ofNat']
  rw [Nat.mod_mod]
  have : UInt8.ofNat (16 * (b1.toNat / 16) + 2 * (b1.toNat % 16) % 2 ^ 8 / 2 % 16) = b1 := by
    apply UInt8.toNat_inj.mp
    simp only [UInt8.toNat_ofNat']
    omega
  rw [this]
  rfl

/-- C39. The extended-seed constructor throws exactly when the input does not have 51 bytes or the height nibble
(low half of the second byte) is 0 or 1; the exception is `invalid_argument`. -/
theorem C39_extended_seed_throws (S : Sha256) (e : Bytes) (x : Exc) :
    XmssFast.fromExtendedSeed S e = .throw x ↔
      x = .invalidArgument ∧ (e.length ≠ 51 ∨ ∃ b, e[1]? = some b ∧ b.toNat % 16 < 2) := by
  by_cases hl : e.length = 51
  · match e, hl with
    | b0 :: b1 :: b2 :: seed, hl =>
      have hs : seed.length = 48 := by simpa using hl
      rw [C09_extended_seed_constructor S b0 b1 b2 seed hs, C39_fast_throws]
      simp only [hs, hl, ne_eq, not_true, false_or, UInt8.toNat_ofNat', List.getElem?_cons_succ,
        List.getElem?_cons_zero, Option.some.injEq]
      constructor
      · rintro ⟨a, b⟩; exact ⟨a, b1, rfl, by omega⟩
      · rintro ⟨a, b, rfl, c⟩; exact ⟨a, Or.inl (by omega)⟩
  · rw [XmssFast.fromExtendedSeed, if_pos hl]
    simp only [Outcome.throw.injEq]
    exact ⟨fun h => ⟨h.symm, Or.inl hl⟩, fun h => h.1.symm⟩

/-- C44 fails: `initialize_tree()` on a used object gives back the fresh object, whatever was signed before. -/
theorem C44_initialize_resets (S : Sha256) (seed : Bytes) (height : UInt8) (hf af : Nat) (o0 : XmssFast)
    (hnew : XmssFast.new S seed height hf af = ok o0) (cs : List Call) (rs : List Reply) (o : XmssFast)
    (hrun : runCalls (XmssFast.call S) o0 cs = some (rs, o)) :
    o.initializeTree S 16 = .ret () o0 := by
  obtain ⟨hs, hg, f, hf1, hf2, e1, e2, e3, e4, p, k, q, hp, e5, H⟩ := fast_fresh hnew
  have hst := (C26_fast_stable S seed height hf af o0 hnew cs rs o hrun).1
  obtain ⟨h4, h30, he⟩ := hg
  have hc : ¬ (2 ≥ height.toNat ∨ (height.toNat - 2) % 2 ≠ 0) := by omega
  have f1 : o.height = height := by rw [hst]; exact e1
  have f2 : o.hashFunction = hf := by rw [hst]; exact e2
  have f3 : o.addrFormat = af := by rw [hst]; exact e3
  have f4 : o.seed = seed := by rw [hst]; exact e4
  have hb : XmssFast.build S seed height hf af = ok o0 := by
    have e0 : XmssFast.new S seed height hf af = XmssFast.build S seed height hf af := by
      simp [XmssFast.new, baseCtorCheck, hs, show ¬ height.toNat > 254 by omega]
    rw [← e0]; exact hnew
  rw [XmssFast.build, if_neg hc] at hb
  rw [XmssFast.initializeTree]
  simp only [f1, f2, f4]
  rw [if_neg hc]
  cases hi : initTree S height hf seed 16 with
  | throw e => rw [hi] at hb; cases hb
  | ub => rw [hi] at hb; cases hb
  | ok x =>
    obtain ⟨p', sk', st'⟩ := x
    rw [hi] at hb
    simp only [ok_bind, Outcome.ok.injEq] at hb
    simp only [ok_bind, Step.ofOutcome, f3]
    rw [hb]

/-- C44 fails: signing, calling the public `initialize_tree()`, and signing again uses one-time key 0 for two
messages. -/
theorem C44_reuse_refuted (S : Sha256) (seed : Bytes) (height : UInt8) (hf af : Nat) (o0 : XmssFast)
    (hnew : XmssFast.new S seed height hf af = ok o0) (m1 m2 : Bytes) :
    ∃ s1 o1 o2 s2 o3, o0.sign S m1 = .ret s1 o1 ∧ o1.initializeTree S 16 = .ret () o2 ∧ o2.sign S m2 = .ret s2 o3 ∧
      sigIndex s1 = 0 ∧ sigIndex s2 = 0 := by
  have hi0 : o0.getIndex = ok 0 := by
    obtain ⟨_, _, _, _, _, _, _, _, _, _, _, _, _, _, H⟩ := fast_fresh hnew
    have := H.getIndex 0 (Nat.zero_le _)
    rwa [fastAt_zero H] at this
  obtain ⟨_, s1, o1, _, _, h1, _, _, i1, _⟩ := C12_fast_sign_verifies S seed height hf af o0 hnew [] [] o0 rfl 0 hi0
    (Nat.two_pow_pos _) m1
  obtain ⟨_, s2, o3, _, _, h3, _, _, i3, _⟩ := C12_fast_sign_verifies S seed height hf af o0 hnew [] [] o0 rfl 0 hi0
    (Nat.two_pow_pos _) m2
  have h2 := C44_initialize_resets S seed height hf af o0 hnew [.sign m1] [.sig s1] o1 (by
    simp only [runCalls, XmssFast.call, h1])
  exact ⟨s1, o1, o0, s2, o3, h1, h2, h3, i1, i3⟩

/-- The hypotheses are met: a fresh object of height 4, and a history with signatures, a skip, a refused rewind. -/
example : ∃ o0, XmssFast.new toySha zeroSeed 4 1 0 = ok o0 ∧
    ∃ rs o, runCalls (XmssFast.call toySha) o0 [.sign [1], .setIndex 9, .setIndex 3, .sign [2], .sign []] = some (rs, o) ∧
      o.getIndex = ok 11 ∧ ∃ s1 s2 s3, rs = [.sig s1, .index 9, .threw .invalidArgument, .sig s2, .sig s3] := by
  obtain ⟨o0, h⟩ := (C39_fast_succeeds toySha zeroSeed 4 1 0).mpr ⟨rfl, goodHeight4, by omega⟩
  obtain ⟨o, h1, h2⟩ := C19_fast_refines_counter toySha zeroSeed 4 .shake_128 0 o0 h
    [.sign [1], .setIndex 9, .setIndex 3, .sign [2], .sign []]
  refine ⟨o0, h, _, o, h1, h2, ?_⟩
  exact ⟨_, _, _, rfl⟩

/-- An exhausted object is reachable. -/
example : ∃ o0 rs o, XmssFast.new toySha zeroSeed 4 1 0 = ok o0 ∧
    runCalls (XmssFast.call toySha) o0 [.setIndex 15, .sign [1], .sign [2]] = some (rs, o) ∧ o.getIndex = ok 16 := by
  obtain ⟨o0, h⟩ := (C39_fast_succeeds toySha zeroSeed 4 1 0).mpr ⟨rfl, goodHeight4, by omega⟩
  obtain ⟨o, h1, h2⟩ := C19_fast_refines_counter toySha zeroSeed 4 .shake_128 0 o0 h [.setIndex 15, .sign [1], .sign [2]]
  exact ⟨o0, _, o, h, h1, h2⟩

end Qrl.Props
