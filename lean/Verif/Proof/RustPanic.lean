import Verif.Spec.RustPanic
import Verif.Proof.RustBasicAny
import Verif.Props.Binding
/-!
# What a panic leaves of a Rust signer
-/

namespace Qrl.Rs

open Res

/-- `xmss_fast_sign_msg` with its buffer is the three parts of `Verif.Model.RustPanic`. -/
theorem signMsg_split (b : Build) (S : Sha256) (hf : HashFn) (p : XmssParams) (sk : Bytes) (st : BdsState) (size : Nat) (m sig sk' : Bytes) (st' : BdsState) :
    (∃ data, xmssFastSignMsg b S hf p sk st m = ok (data, sk', st') ∧ fillBuffer size data = ok sig) ↔
      ∃ idx skSeed skPrf pubSeed num adr, fastSignStart b sk = ok (idx, skSeed, skPrf, pubSeed, sk') ∧
        fastSignWrite b S hf p st size m idx skSeed skPrf pubSeed sk' = ok (sig, num, adr) ∧
        fastSignRounds S hf p st skSeed pubSeed idx num adr = ok st' := by
  constructor
  · rintro ⟨data, h, hfill⟩
    rw [xmssFastSignMsg] at h
    obtain ⟨idx, h1, h⟩ := bind_eq_ok.mp h
    obtain ⟨a, h2, h⟩ := bind_eq_ok.mp h
    obtain ⟨bb, h3, h⟩ := bind_eq_ok.mp h
    obtain ⟨c, h4, h⟩ := bind_eq_ok.mp h
    obtain ⟨nx, h5, h⟩ := bind_eq_ok.mp h
    dsimp only at h
    obtain ⟨r, h6, h⟩ := bind_eq_ok.mp h
    obtain ⟨root, h7, h⟩ := bind_eq_ok.mp h
    obtain ⟨d, h8, h⟩ := bind_eq_ok.mp h
    obtain ⟨x, h9, h⟩ := bind_eq_ok.mp h
    obtain ⟨rfl, rfl, rfl⟩ : x.1 = data ∧ idxBytes nx ++ sk.drop 4 = sk' ∧ x.2 = st' := by
      cases h; exact ⟨rfl, rfl, rfl⟩
    rw [fastSignDigest] at h9
    dsimp only at h9
    obtain ⟨y, h10, h9⟩ := bind_eq_ok.mp h9
    obtain ⟨z, h11, h9⟩ := bind_eq_ok.mp h9
    obtain ⟨path, h12, h9⟩ := bind_eq_ok.mp h9
    obtain ⟨num, h13, h9⟩ := bind_eq_ok.mp h9
    have h9 : (fastSignRounds S hf p st a c idx num z.2 >>= fun st => ok (idxBytes idx ++ r ++ z.1.flatten ++ path.flatten, st)) = ok x := by
      rw [fastSignRounds]
      split at h9
      · rename_i hc
        rw [if_pos hc, Res.bind_assoc]
        exact h9
      · rename_i hc
        rw [if_neg hc]
        exact h9
    obtain ⟨st'', h14, h9⟩ := bind_eq_ok.mp h9
    cases h9
    refine ⟨idx, a, bb, c, num, z.2, ?_, ?_, h14⟩
    · rw [fastSignStart, h1, ok_bind, h2, ok_bind, h3, ok_bind, h4, ok_bind, h5, ok_bind]
    · rw [fastSignWrite, h6, ok_bind, h7, ok_bind]
      dsimp only
      rw [h8, ok_bind, h10, ok_bind, h11, ok_bind, h12, ok_bind, hfill, ok_bind, h13, ok_bind]
  · rintro ⟨idx, a, bb, c, num, adr, h, h', h14⟩
    rw [fastSignStart] at h
    obtain ⟨idx', h1, h⟩ := bind_eq_ok.mp h
    obtain ⟨a', h2, h⟩ := bind_eq_ok.mp h
    obtain ⟨bb', h3, h⟩ := bind_eq_ok.mp h
    obtain ⟨c', h4, h⟩ := bind_eq_ok.mp h
    obtain ⟨nx, h5, h⟩ := bind_eq_ok.mp h
    cases h
    rw [fastSignWrite] at h'
    obtain ⟨r, h6, h'⟩ := bind_eq_ok.mp h'
    obtain ⟨root, h7, h'⟩ := bind_eq_ok.mp h'
    dsimp only at h'
    obtain ⟨d, h8, h'⟩ := bind_eq_ok.mp h'
    obtain ⟨y, h10, h'⟩ := bind_eq_ok.mp h'
    obtain ⟨z, h11, h'⟩ := bind_eq_ok.mp h'
    obtain ⟨path, h12, h'⟩ := bind_eq_ok.mp h'
    obtain ⟨sig', hfill, h'⟩ := bind_eq_ok.mp h'
    obtain ⟨num', h13, h'⟩ := bind_eq_ok.mp h'
    cases h'
    refine ⟨_, ?_, hfill⟩
    rw [xmssFastSignMsg, h1, ok_bind, h2, ok_bind, h3, ok_bind, h4, ok_bind, h5, ok_bind]
    dsimp only
    rw [h6, ok_bind, h7, ok_bind, h8, ok_bind, fastSignDigest]
    dsimp only
    rw [h10, ok_bind, h11, ok_bind, h12, ok_bind, h13, ok_bind]
    rw [fastSignRounds] at h14
    split at h14
    · rename_i hc
      rw [if_pos hc]
      obtain ⟨st1, h15, h14⟩ := bind_eq_ok.mp h14
      rw [h15, ok_bind, h14]
      rfl
    · rename_i hc
      rw [if_neg hc, h14]
      rfl
theorem signMsgP_ret (b : Build) (S : Sha256) (torn : BdsState) (o : XMSSFast) (m s : Bytes) (o' : XMSSFast) :
    o.signMsgP b S torn m = .ret s o' ↔
      (do
        let (data, (sk, st)) ← xmssFastSignMsg b S o.hashFunction o.params o.sk o.state m
        let sig ← fillBuffer (o.getSignatureSize o.params.wots.w) data
        ok (sig, { o with sk := sk, state := st })) = ok (s, o') := by
  have key := signMsg_split b S o.hashFunction o.params o.sk o.state (o.getSignatureSize o.params.wots.w) m s
  rw [bind_eq_ok]
  constructor
  · intro h
    rw [XMSSFast.signMsgP] at h
    split at h
    · rename_i idx a bb c sk' h1
      split at h
      · rename_i sig num adr h2
        split at h
        · rename_i st h3
          obtain ⟨rfl, rfl⟩ := Fate.ret.inj h
          obtain ⟨data, e1, e2⟩ := (key sk' st).mpr ⟨_, _, _, _, _, _, h1, h2, h3⟩
          refine ⟨_, e1, ?_⟩
          dsimp only
          rw [e2]
          rfl
        · cases h
      · cases h
    · cases h
  · rintro ⟨⟨data, sk', st'⟩, h1, h⟩
    dsimp only at h
    obtain ⟨sig, h2, h⟩ := bind_eq_ok.mp h
    obtain ⟨rfl, rfl⟩ := Prod.mk.inj (Res.ok.inj h)
    obtain ⟨idx, a, bb, c, num, adr, e1, e2, e3⟩ := (key sk' st').mp ⟨data, h1, h2⟩
    rw [XMSSFast.signMsgP, e1]
    dsimp only
    rw [e2]
    dsimp only
    rw [e3]

/-- `sign` with and without the object a panic leaves: it returns in the same cases. -/
theorem signP_ret (b : Build) (S : Sha256) (torn : BdsState) (o : XMSSFast) (m s : Bytes) (o' : XMSSFast) :
    o.signP b S torn m = .ret s o' ↔ o.sign b S m = .ret s o' := by
  rw [XMSSFast.signP, XMSSFast.sign]
  cases o.getIndex with
  | err e => constructor <;> (intro h; cases h)
  | panic => constructor <;> (intro h; cases h)
  | ok i =>
    dsimp only
    rw [XMSSFast.setIndexP]
    cases o.setIndex b S i with
    | fail e o1 => constructor <;> (intro h; cases h)
    | panic => constructor <;> (intro h; cases h)
    | ret _ o1 =>
      dsimp only
      rw [signMsgP_ret]
      constructor
      · intro h; rw [h]; rfl
      · intro h
        generalize (do
          let (data, (sk, st)) ← xmssFastSignMsg b S o1.hashFunction o1.params o1.sk o1.state m
          let sig ← fillBuffer (o1.getSignatureSize o1.params.wots.w) data
          ok (sig, { o1 with sk := sk, state := st }) : Res (Bytes × XMSSFast)) = x at h ⊢
        cases x with
        | ok y => obtain ⟨rfl, rfl⟩ := Step.ret.inj h; rfl
        | err e => cases h
        | panic => cases h

/-! ## The index -/

theorem be32_rs {l : Bytes} (h : 4 ≤ l.length) : be32At l = ok (Spec.byteVal (l.take 4)) :=
  be32At_sim l _ (Qrl.be32At_eq h)

theorem be32_short {l : Bytes} (h : l.length < 4) : be32At l = panic := by
  match l, h with
  | [], _ => rfl
  | [_], _ => rfl
  | [_, _], _ => rfl
  | [_, _, _], _ => rfl

theorem index_rs {o : XMSSBase} (h : 4 ≤ o.sk.length) : o.getIndex = ok (Spec.byteVal (o.sk.take 4)) := by
  obtain ⟨hf, ht, sk, seed⟩ := o
  match sk, h with
  | a :: b :: c :: d :: rest, _ =>
    have e : XMSSBase.getIndex ⟨hf, ht, a :: b :: c :: d :: rest, seed⟩ =
      ok ((a.toNat <<< 24) + (b.toNat <<< 16) + (c.toNat <<< 8) + d.toNat) := rfl
    rw [e]
    simp only [Nat.shiftLeft_eq, Spec.byteVal, List.take_succ_cons, List.take_zero, List.foldl_cons, List.foldl_nil]
    refine congrArg ok ?_
    generalize a.toNat = x
    generalize b.toNat = y
    generalize c.toNat = z
    generalize d.toNat = t
    omega

theorem index_short {o : XMSSBase} (h : o.sk.length < 4) : o.getIndex = panic := by
  obtain ⟨hf, ht, sk, seed⟩ := o
  match sk, h with
  | [], _ => rfl
  | [_], _ => rfl
  | [_, _], _ => rfl
  | [_, _, _], _ => rfl

theorem index_lt {l : Bytes} : Spec.byteVal (l.take 4) < 2 ^ 32 := by
  have h := Props.byteVal_lt (l.take 4)
  have : 256 ^ (l.take 4).length ≤ 256 ^ 4 := Nat.pow_le_pow_right (by omega) (by rw [List.length_take]; omega)
  omega

theorem idxBytes_rs (n : Nat) : idxBytes n = Spec.be 4 n := Qrl.idxBytes_eq n

theorem length_idxBytes (n : Nat) : (idxBytes n).length = 4 := rfl

theorem index_written {n : Nat} (h : n < 2 ^ 32) (t : Bytes) : Spec.byteVal ((idxBytes n ++ t).take 4) = n := by
  rw [List.take_append_of_le_length (show 4 ≤ (idxBytes n).length from Nat.le_refl 4),
    List.take_of_length_le (show (idxBytes n).length ≤ 4 from Nat.le_refl 4), idxBytes_rs, byteVal_be, Nat.mod_eq_of_lt (by omega)]

theorem length_written (n : Nat) {sk : Bytes} (h : 4 ≤ sk.length) : (idxBytes n ++ sk.drop 4).length = sk.length := by
  rw [List.length_append, length_idxBytes, List.length_drop]; omega

theorem shl1_le {b : Build} {h n : Nat} (e : shl1 b h = ok n) : n ≤ 2 ^ 31 := by
  rw [shl1.eq_def] at e
  split at e
  · cases e; exact Nat.pow_le_pow_right (by omega) (by omega)
  · cases b with
    | debug => cases e
    | release => cases e; exact Nat.pow_le_pow_right (by omega) (by omega)

/-- What `set_index` does to any object. -/
theorem setIndex_any {b : Build} {S : Sha256} {o : XMSSFast} {n : Nat} (h4 : 4 ≤ o.sk.length) :
    (∃ st, o.setIndex b S n = .ret n { o with sk := idxBytes n ++ o.sk.drop 4, state := st } ∧
      Spec.byteVal (o.sk.take 4) ≤ n ∧ n < 2 ^ 31) ∨
    (∃ e, o.setIndex b S n = .fail e o) ∨ o.setIndex b S n = .panic := by
  rw [XMSSFast.setIndex]
  cases hx : xmssFastUpdate b S o.hashFunction o.params o.sk o.state n with
  | err e => exact Or.inr (Or.inl ⟨e, rfl⟩)
  | panic => exact Or.inr (Or.inr rfl)
  | ok x =>
    left
    rw [xmssFastUpdate] at hx
    obtain ⟨num, h1, hx⟩ := bind_eq_ok.mp hx
    rw [be32_rs h4, ok_bind] at hx
    split at hx
    · cases hx
    · split at hx
      · cases hx
      · obtain ⟨_, _, hx⟩ := bind_eq_ok.mp hx
        obtain ⟨_, _, hx⟩ := bind_eq_ok.mp hx
        obtain ⟨st, _, hx⟩ := bind_eq_ok.mp hx
        cases hx
        have := shl1_le h1
        exact ⟨st, rfl, by omega, by omega⟩

theorem start_any {b : Build} {sk : Bytes} {idx : Nat} {a c d sk' : Bytes} (h4 : 4 ≤ sk.length)
    (hi : Spec.byteVal (sk.take 4) < 2 ^ 31) (h : fastSignStart b sk = ok (idx, a, c, d, sk')) :
    idx = Spec.byteVal (sk.take 4) ∧ sk' = idxBytes (idx + 1) ++ sk.drop 4 := by
  rw [fastSignStart, be32_rs h4, ok_bind] at h
  obtain ⟨_, _, h⟩ := bind_eq_ok.mp h
  obtain ⟨_, _, h⟩ := bind_eq_ok.mp h
  obtain ⟨_, _, h⟩ := bind_eq_ok.mp h
  rw [u32_lt b (by omega), ok_bind] at h
  cases h
  exact ⟨rfl, rfl⟩

theorem write_index {b : Build} {S : Sha256} {hf : HashFn} {p : XmssParams} {st : BdsState} {size : Nat} {m : Bytes} {idx : Nat}
    {a c d sk' sig : Bytes} {num : Nat} {adr : Adrs} (hi : idx < 2 ^ 32)
    (h : fastSignWrite b S hf p st size m idx a c d sk' = ok (sig, num, adr)) : sigIndex sig = idx := by
  rw [fastSignWrite] at h
  obtain ⟨_, _, h⟩ := bind_eq_ok.mp h
  obtain ⟨_, _, h⟩ := bind_eq_ok.mp h
  dsimp only at h
  obtain ⟨_, _, h⟩ := bind_eq_ok.mp h
  obtain ⟨_, _, h⟩ := bind_eq_ok.mp h
  obtain ⟨_, _, h⟩ := bind_eq_ok.mp h
  obtain ⟨_, _, h⟩ := bind_eq_ok.mp h
  obtain ⟨s, hs, h⟩ := bind_eq_ok.mp h
  obtain ⟨_, _, h⟩ := bind_eq_ok.mp h
  cases h
  rw [fillBuffer] at hs
  split at hs
  · cases hs
    rw [sigIndex]
    simp only [List.append_assoc]
    exact index_written hi _
  · cases hs

/-- One call on any object whose secret key holds an index: the index never falls, a returned signature carries the index
the object had, and the index is then past it. -/
theorem caught_any (b : Build) (S : Sha256) {o : XMSSFast} (h4 : 4 ≤ o.sk.length) (c : Call × BdsState) :
    4 ≤ (o.caught b S c).2.sk.length ∧
    Spec.byteVal (o.sk.take 4) ≤ Spec.byteVal ((o.caught b S c).2.sk.take 4) ∧
    ∀ s, (o.caught b S c).1 = some (.sig s) → sigIndex s = Spec.byteVal (o.sk.take 4) ∧
      Spec.byteVal (o.sk.take 4) < Spec.byteVal ((o.caught b S c).2.sk.take 4) := by
  obtain ⟨c, torn⟩ := c
  have same : ∀ (o' : XMSSFast) (r : Option Reply), o'.sk = o.sk → (∀ s, r ≠ some (.sig s)) →
      4 ≤ o'.sk.length ∧ Spec.byteVal (o.sk.take 4) ≤ Spec.byteVal (o'.sk.take 4) ∧
      ∀ s, r = some (.sig s) → sigIndex s = Spec.byteVal (o.sk.take 4) ∧ Spec.byteVal (o.sk.take 4) < Spec.byteVal (o'.sk.take 4) := by
    intro o' r e hr
    rw [e]
    exact ⟨h4, Nat.le_refl _, fun s h => absurd h (hr s)⟩
  have noSig : ∀ (e : Err) s, (some e.reply : Option Reply) ≠ some (.sig s) := by
    intro e s h; cases e <;> cases h
  cases c with
  | setIndex n =>
    rw [XMSSFast.caught, XMSSFast.setIndexP]
    rcases setIndex_any (b := b) (S := S) (n := n.toNat) h4 with ⟨st, e, h1, h2⟩ | ⟨e', e⟩ | e
    · rw [e]
      simp only [Fate.reply]
      refine ⟨by rw [length_written _ h4]; exact h4, by rw [index_written (by omega)]; exact h1, ?_⟩
      intro s h; cases h
    · rw [e]
      exact same _ _ rfl (noSig e')
    · rw [e]
      exact same _ _ rfl (fun s h => by cases h)
  | sign m =>
    rw [XMSSFast.caught, XMSSFast.signP, index_rs h4]
    dsimp only
    rw [XMSSFast.setIndexP]
    rcases setIndex_any (b := b) (S := S) (n := Spec.byteVal (o.sk.take 4)) h4 with ⟨st, e, -, h2⟩ | ⟨e', e⟩ | e
    · rw [e]
      dsimp only
      have hsk : idxBytes (Spec.byteVal (o.sk.take 4)) ++ o.sk.drop 4 = o.sk := by
        have : idxBytes (Spec.byteVal (o.sk.take 4)) = o.sk.take 4 := by
          apply Props.byteVal_inj
          · rw [length_idxBytes, List.length_take]; omega
          · have := index_written (n := Spec.byteVal (o.sk.take 4)) (by omega) []
            rwa [List.append_nil, List.take_of_length_le (show (idxBytes _).length ≤ 4 from Nat.le_refl 4)] at this
        rw [this, List.take_append_drop]
      rw [hsk]
      rw [XMSSFast.signMsgP]
      dsimp only
      cases hst : fastSignStart b o.sk with
      | err e => exact same _ _ rfl (fun s h => by cases h)
      | panic => exact same _ _ rfl (fun s h => by cases h)
      | ok x =>
        obtain ⟨idx, a, bb, d, sk'⟩ := x
        obtain ⟨rfl, rfl⟩ := start_any h4 h2 hst
        have adv : ∀ (o' : XMSSFast) (r : Option Reply), o'.sk = idxBytes (Spec.byteVal (o.sk.take 4) + 1) ++ o.sk.drop 4 →
            (∀ s, r = some (.sig s) → sigIndex s = Spec.byteVal (o.sk.take 4)) →
            4 ≤ o'.sk.length ∧ Spec.byteVal (o.sk.take 4) ≤ Spec.byteVal (o'.sk.take 4) ∧
            ∀ s, r = some (.sig s) → sigIndex s = Spec.byteVal (o.sk.take 4) ∧
              Spec.byteVal (o.sk.take 4) < Spec.byteVal (o'.sk.take 4) := by
          intro o' r e hr
          rw [e, length_written _ h4, index_written (by omega)]
          exact ⟨h4, by omega, fun s h => ⟨hr s h, by omega⟩⟩
        dsimp only
        split
        · rename_i sig num adr hw
          split
          · refine adv _ _ rfl (fun s h => ?_)
            cases h
            exact write_index (by omega) hw
          · exact adv _ _ rfl (fun s h => by cases h)
        · exact adv _ _ rfl (fun s h => by cases h)
    · rw [e]
      exact same _ _ rfl (noSig e')
    · rw [e]
      exact same _ _ rfl (fun s h => by cases h)

/-! ## An object after a panic in message hashing -/

/-- The positions `sign` uses for the message at index `i`, if it gets that far. -/
def digitsW (b : Build) (S : Sha256) (f : HashFn) (w h : Nat) (K : KeyParts) (i : Nat) (m : Bytes) : Option (List Nat) := do
  let m' ← Spec.rustSigned f (Spec.PRF (f.prim S) K.skPrf (Spec.be 32 i) ++
    Spec.node (f.prim S) w (Spec.rustLen w) K.skSeed K.ps h 0 ++ Spec.be 32 i) m
  Spec.rustPositions b w (Spec.digest (f.prim S) (Spec.PRF (f.prim S) K.skPrf (Spec.be 32 i))
    (Spec.node (f.prim S) w (Spec.rustLen w) K.skSeed K.ps h 0) i m')

theorem sigW_digits (b : Build) (S : Sha256) (f : HashFn) (w h : Nat) (K : KeyParts) (i : Nat) (m : Bytes) :
    sigW b S f w h K i m = (digitsW b S f w h K i m).map (Spec.signatureFrom (f.prim S) w h K.skSeed K.skPrf K.ps i) := by
  rw [sigW, Spec.rustSignatureAny, digitsW]
  cases Spec.rustSigned f (Spec.PRF (f.prim S) K.skPrf (Spec.be 32 i) ++
    Spec.node (f.prim S) w (Spec.rustLen w) K.skSeed K.ps h 0 ++ Spec.be 32 i) m with
  | none => rfl
  | some m' =>
    simp only [Option.bind_eq_bind, Option.bind_some]
    cases Spec.rustPositions b w (Spec.digest (f.prim S) (Spec.PRF (f.prim S) K.skPrf (Spec.be 32 i))
      (Spec.node (f.prim S) w (Spec.rustLen w) K.skSeed K.ps h 0) i m') with
    | none => rfl
    | some ds => rfl

/-- The signature at index `i` with a given path. -/
def sigWith (S : Sha256) (f : HashFn) (K : KeyParts) (i : Nat) (ds : List Nat) (path : List Bytes) : Bytes :=
  Spec.be 4 i ++ Spec.PRF (f.prim S) K.skPrf (Spec.be 32 i) ++ (Spec.wotsSig (f.prim S) K.skSeed K.ps i ds).flatten ++ path.flatten

/-- The object whose index was advanced but whose tree state was not. -/
def lagAt (S : Sha256) (K : KeyParts) (o0 : XMSSFast) (i : Nat) : XMSSFast := { fastAt S K o0 i with sk := K.sk (i + 1) }

namespace FastW

variable {S : Sha256} {w : Nat} {K : KeyParts} {o0 : XMSSFast} (H : FastW S w K o0)
include H

theorem start (b : Build) (j : Nat) (hj : j < 2 ^ o0.height.toNat) :
    fastSignStart b (K.sk j) = ok (j, K.skSeed, K.skPrf, K.ps, K.sk (j + 1)) := by
  have hlt := H.pow_le
  rw [fastSignStart, be32At_sim _ _ (K.idx j (by omega)), ok_bind, sim_slice _ _ _ _ (K.seed_slice j), ok_bind,
    sim_slice _ _ _ _ (K.prf_slice j), ok_bind, sim_slice _ _ _ _ (K.ps_slice j), ok_bind, u32_lt b (by omega), ok_bind,
    show idxBytes (j + 1) ++ (K.sk j).drop 4 = K.sk (j + 1) from K.reindex j (j + 1)]

theorem write (b : Build) (j : Nat) (st : BdsState) (path : List Bytes)
    (hpath : authOut st.auth o0.height.toNat 0 = ok path) (hl : path.flatten.length = 32 * o0.height.toNat) (m : Bytes) :
    match digitsW b S o0.hashFunction w o0.height.toNat K j m with
    | none => fastSignWrite b S o0.hashFunction o0.params st (o0.getSignatureSize o0.params.wots.w) m j K.skSeed K.skPrf K.ps
        (K.sk (j + 1)) = panic
    | some ds => ∃ adr, fastSignWrite b S o0.hashFunction o0.params st (o0.getSignatureSize o0.params.wots.w) m j K.skSeed
        K.skPrf K.ps (K.sk (j + 1)) = ok (sigWith S o0.hashFunction K j ds path, 2 ^ o0.height.toNat, adr) := by
  have h30 := H.hh.2.1
  have e7 : o0.params.wots = wotsParams w := by rw [H.hop]
  have s4 := sim_slice _ _ _ _ (K.root_slice (j + 1))
  have hw : fastSignWrite b S o0.hashFunction o0.params st (o0.getSignatureSize o0.params.wots.w) m j K.skSeed K.skPrf K.ps
      (K.sk (j + 1)) = (match Spec.rustSigned o0.hashFunction (Spec.PRF (o0.hashFunction.prim S) K.skPrf (Spec.be 32 j) ++
        Spec.node (o0.hashFunction.prim S) w (Spec.rustLen w) K.skSeed K.ps o0.height.toNat 0 ++ Spec.be 32 j) m with
      | none => panic
      | some m' => do
        let (wsig, otsAddr) ← wotsSign b S o0.hashFunction (wotsParams w) (Spec.digest (o0.hashFunction.prim S)
          (Spec.PRF (o0.hashFunction.prim S) K.skPrf (Spec.be 32 j))
          (Spec.node (o0.hashFunction.prim S) w (Spec.rustLen w) K.skSeed K.ps o0.height.toNat 0) j m')
          (Spec.PRF (o0.hashFunction.prim S) K.skSeed (Spec.address 0 j 0 0 0)) K.ps ⟨0, 0, 0, 0, j, 0, 0, 0⟩
        let sig ← fillBuffer (o0.getSignatureSize o0.params.wots.w)
          (Spec.be 4 j ++ Spec.PRF (o0.hashFunction.prim S) K.skPrf (Spec.be 32 j) ++ wsig.flatten ++ path.flatten)
        ok (sig, 2 ^ o0.height.toNat, otsAddr)) := by
    rw [fastSignWrite]
    simp only [toByte_rs]
    rw [prf_rs S _ _ K.skPrf (length_toByte _ _) (by rw [K.l2]), take32_of K.l2]
    simp only [ok_bind, prf_eq, toByte_eq_be]
    rw [s4, ok_bind, hMsg_rs _ _ _ (length_signKey _ K j), ← H.hroot]
    cases Spec.rustSigned o0.hashFunction (Spec.PRF (o0.hashFunction.prim S) K.skPrf (Spec.be 32 j) ++ K.root ++ Spec.be 32 j) m with
    | none => rfl
    | some m' =>
      dsimp only
      rw [ok_bind, hMsg_eq, getSeed_rs S _ _ _ (by rw [K.l1]), take32_of K.l1]
      simp only [ok_bind, setType, setOTS, getSeed_eq, e7, H.h_eq, hpath, shl1_lt b (Nat.lt_of_le_of_lt h30 (by omega)),
        show idxBytes j = Spec.be 4 j from idxBytes_eq j]
      rfl
  rw [hw, digitsW]
  cases Spec.rustSigned o0.hashFunction (Spec.PRF (o0.hashFunction.prim S) K.skPrf (Spec.be 32 j) ++
      Spec.node (o0.hashFunction.prim S) w (Spec.rustLen w) K.skSeed K.ps o0.height.toNat 0 ++ Spec.be 32 j) m with
  | none => rfl
  | some m' =>
    rw [Option.bind_eq_bind, Option.bind_some]
    dsimp only
    generalize hd0 : Spec.digest (o0.hashFunction.prim S) (Spec.PRF (o0.hashFunction.prim S) K.skPrf (Spec.be 32 j))
      (Spec.node (o0.hashFunction.prim S) w (Spec.rustLen w) K.skSeed K.ps o0.height.toNat 0) j m' = d
    have hd : d.length = 32 := by rw [← hd0, Spec.digest]; exact length_Hmsg ..
    cases hp : Spec.rustPositions b w d with
    | none =>
      dsimp only
      rw [wotsSign, signDigits_none H.range hd hp]
      rfl
    | some ds =>
      dsimp only
      obtain ⟨x', y', z', e⟩ := wotsSign_rsAny (S := S) o0.hashFunction H.range hd hp K.skSeed K.ps K.l3 j 0 0 0
      rw [e, ok_bind]
      dsimp only
      rw [fillBuffer_exact]
      · exact ⟨_, rfl⟩
      · show _ = 4 + 32 + (wotsParams o0.params.wots.w).keysize + o0.height.toNat * 32
        have hds := (rustPositions_props H.range hd hp).1
        have hpw : o0.params.wots.w = w := by rw [H.hop]; rfl
        rw [hpw, show (wotsParams w).keysize = Spec.rustLen w * 32 from rfl]
        simp only [List.length_append, length_be, length_PRF, length_flatten32 _ (mem_wotsSig S o0.hashFunction _ _ j _), hl]
        simp only [Spec.wotsSig, List.length_map, List.length_zipIdx, hds]
        omega

/-- The path the tree state of index `i` holds. -/
theorem path_at (i : Nat) (hi : i < 2 ^ o0.height.toNat) :
    authOut (fastAt S K o0 i).state.auth o0.height.toNat 0 =
      ok (Spec.authPath (o0.hashFunction.prim S) w (Spec.rustLen w) K.skSeed K.ps o0.height.toNat i) ∧
    (Spec.authPath (o0.hashFunction.prim S) w (Spec.rustLen w) K.skSeed K.ps o0.height.toNat i).flatten.length =
      32 * o0.height.toNat := by
  have h30 := H.hh.2.1
  have e7 : o0.params.wots = wotsParams w := by rw [H.hop]
  obtain ⟨T, hinv⟩ := (adv_inv S o0.hashFunction o0.params K.skSeed K.ps H.lenw (by rw [H.h_eq]; exact H.hh.1)
    (by rw [H.h_eq]; exact h30) (by rw [H.h_eq]; exact H.hh.2.2) H.init' i (by rw [H.h_eq]; exact hi)).2
  rw [H.h_eq] at hinv
  have hpath := authOut_sim _ _ _ _ (authOut_eq _ o0.height.toNat i _ hinv.auth.auth o0.height.toNat 0 (by omega))
  have e : min i (2 ^ o0.height.toNat - 1) = i := by omega
  constructor
  · simp only [fastAt, e]
    rw [hpath]
    rw [Spec.authPath, List.range_eq_range', e7]; rfl
  · rw [length_flatten32 _ (mem_authPath S _ w (Spec.rustLen w) _ _ _ i (rustLen_pos H.range)), Spec.authPath, List.length_map,
      List.length_range]

theorem signP (b : Build) (torn : BdsState) (i : Nat) (hi : i < 2 ^ o0.height.toNat) (m : Bytes) :
    (fastAt S K o0 i).signP b S torn m =
      match sigW b S o0.hashFunction w o0.height.toNat K i m with
      | none => .panic (lagAt S K o0 i)
      | some s => .ret s (fastAt S K o0 (i + 1)) := by
  have hs := H.sign b i hi m
  obtain ⟨p1, p2⟩ := H.path_at i hi
  have hwr := H.write b i (fastAt S K o0 i).state _ p1 p2 m
  rw [sigW_digits] at hs ⊢
  cases hd : digitsW b S o0.hashFunction w o0.height.toNat K i m with
  | some ds =>
    rw [hd] at hs
    exact (signP_ret b S torn _ m _ _).mpr hs
  | none =>
    rw [hd] at hwr
    rw [XMSSFast.signP, H.getIndex i (by omega)]
    dsimp only
    rw [XMSSFast.setIndexP, H.setIndex_ok b i i (Nat.le_refl _) hi]
    dsimp only
    rw [XMSSFast.signMsgP, show fastSignStart b (fastAt S K o0 i).sk = _ from H.start b i hi]
    dsimp only
    rw [show fastSignWrite b S (fastAt S K o0 i).hashFunction (fastAt S K o0 i).params (fastAt S K o0 i).state
      ((fastAt S K o0 i).getSignatureSize (fastAt S K o0 i).params.wots.w) m i K.skSeed K.skPrf K.ps (K.sk (i + 1)) = panic from hwr]
    rfl

theorem lag_index (i : Nat) (hi : i < 2 ^ o0.height.toNat) : (lagAt S K o0 i).getIndex = ok (i + 1) :=
  have := H.pow_le
  getIndex_sim (lagAt S K o0 i).toXMSSBase o0.params (i + 1) (K.getIndex _ (i + 1) rfl (by omega))

theorem lag_setIndex (b : Build) (i : Nat) (hi : i + 1 < 2 ^ o0.height.toNat) :
    (lagAt S K o0 i).setIndex b S (i + 1) = .ret (i + 1) (lagAt S K o0 i) := by
  have hlt := H.pow_le
  have h30 := H.hh.2.1
  have s1 := sim_slice _ _ _ _ (K.seed_slice (i + 1))
  have s2 := sim_slice _ _ _ _ (K.ps_slice (i + 1))
  have s3 := be32At_sim _ _ (K.idx (i + 1) (by omega))
  have sh : shl1 b o0.height.toNat = ok (2 ^ o0.height.toNat) :=
    shl1_lt b (Nat.lt_of_le_of_lt h30 (by omega))
  rw [XMSSFast.setIndex, xmssFastUpdate]
  simp only [lagAt, fastAt, H.h_eq, sh, s3, ok_bind]
  rw [if_neg (by omega), if_neg (by omega)]
  simp only [s1, s2, ok_bind, Nat.sub_self, advanceLoop]
  rw [show idxBytes (i + 1) ++ (K.sk (i + 1)).drop 4 = K.sk (i + 1) from K.reindex (i + 1) (i + 1)]
  rfl

/-- The next `sign` of such an object. -/
theorem lag_signP (b : Build) (torn : BdsState) (i : Nat) (hi : i + 1 < 2 ^ o0.height.toNat) (m : Bytes) :
    match digitsW b S o0.hashFunction w o0.height.toNat K (i + 1) m with
    | none => (lagAt S K o0 i).signP b S torn m = .panic { lagAt S K o0 i with sk := K.sk (i + 2) }
    | some ds =>
      (∃ st, (lagAt S K o0 i).signP b S torn m = .ret (sigWith S o0.hashFunction K (i + 1) ds
        (Spec.authPath (o0.hashFunction.prim S) w (Spec.rustLen w) K.skSeed K.ps o0.height.toNat i))
        { lagAt S K o0 i with sk := K.sk (i + 2), state := st }) ∨
      (i + 2 < 2 ^ o0.height.toNat ∧ (lagAt S K o0 i).signP b S torn m = .panic { lagAt S K o0 i with sk := K.sk (i + 2), state := torn }) := by
  obtain ⟨p1, p2⟩ := H.path_at i (by omega)
  have hwr := H.write b (i + 1) (fastAt S K o0 i).state _ p1 p2 m
  have hsg : (lagAt S K o0 i).signP b S torn m = (lagAt S K o0 i).signMsgP b S torn m := by
    rw [XMSSFast.signP, H.lag_index i (by omega)]
    dsimp only
    rw [XMSSFast.setIndexP, H.lag_setIndex b i hi]
  rw [hsg, XMSSFast.signMsgP, show fastSignStart b (lagAt S K o0 i).sk = _ from H.start b (i + 1) hi]
  dsimp only
  cases hd : digitsW b S o0.hashFunction w o0.height.toNat K (i + 1) m with
  | none =>
    rw [hd] at hwr
    dsimp only
    rw [show fastSignWrite b S (lagAt S K o0 i).hashFunction (lagAt S K o0 i).params (lagAt S K o0 i).state
      ((lagAt S K o0 i).getSignatureSize (lagAt S K o0 i).params.wots.w) m (i + 1) K.skSeed K.skPrf K.ps (K.sk (i + 1 + 1)) = panic
      from hwr]
  | some ds =>
    rw [hd] at hwr
    obtain ⟨adr, hwr⟩ := hwr
    dsimp only
    rw [show fastSignWrite b S (lagAt S K o0 i).hashFunction (lagAt S K o0 i).params (lagAt S K o0 i).state
      ((lagAt S K o0 i).getSignatureSize (lagAt S K o0 i).params.wots.w) m (i + 1) K.skSeed K.skPrf K.ps (K.sk (i + 1 + 1)) = _
      from hwr]
    dsimp only
    cases hr : fastSignRounds S (lagAt S K o0 i).hashFunction (lagAt S K o0 i).params (lagAt S K o0 i).state K.skSeed K.ps (i + 1)
      (2 ^ o0.height.toNat) adr with
    | ok st => exact Or.inl ⟨st, rfl⟩
    | panic =>
      refine Or.inr ⟨?_, rfl⟩
      apply Classical.byContradiction
      intro hc
      rw [fastSignRounds, if_neg (by omega)] at hr
      cases hr
    | err e =>
      refine Or.inr ⟨?_, rfl⟩
      apply Classical.byContradiction
      intro hc
      rw [fastSignRounds, if_neg (by omega)] at hr
      cases hr

end FastW

/-! ## `XMSSBasic` -/

theorem basicSign_eq (b : Build) (S : Sha256) (o : XMSSBasic) (m : Bytes) :
    o.sign b S m = fastSignStart b o.sk >>= fun x => basicSignWrite b S o m x.1 x.2.1 x.2.2.1 x.2.2.2.1 x.2.2.2.2 >>= fun sig =>
      ok (sig, { o with sk := x.2.2.2.2 }) := by
  simp only [XMSSBasic.sign, xmssSignMsg, fastSignStart, basicSignWrite, Res.bind_assoc, ok_bind]

/-- `sign` returns in the same cases. -/
theorem basicSignP_ret (b : Build) (S : Sha256) (o : XMSSBasic) (m s : Bytes) (o' : XMSSBasic) :
    o.signP b S m = .ret s o' ↔ o.sign b S m = ok (s, o') := by
  rw [basicSign_eq, XMSSBasic.signP]
  cases fastSignStart b o.sk with
  | err e => constructor <;> (intro h; cases h)
  | panic => constructor <;> (intro h; cases h)
  | ok x =>
    obtain ⟨idx, a, c, d, sk'⟩ := x
    rw [ok_bind]
    dsimp only
    cases basicSignWrite b S o m idx a c d sk' with
    | err e => constructor <;> (intro h; cases h)
    | panic => constructor <;> (intro h; cases h)
    | ok y =>
      rw [ok_bind]
      constructor
      · intro h; obtain ⟨rfl, rfl⟩ := Fate.ret.inj h; rfl
      · intro h; obtain ⟨rfl, rfl⟩ := Prod.mk.inj (Res.ok.inj h); rfl

/-- The index after a `sign` at index `i`. -/
def burn (b : Build) (i : Nat) : Nat := if i + 1 < 2 ^ 32 then i + 1 else if b = .release then 0 else i

theorem basic_signP_rs (b : Build) {S : Sha256} {w : Nat} (hw : Spec.RangeW w) (o0 : XMSSBasic)
    (hop : o0.params = ⟨wotsParams w, o0.height.toNat⟩) (hh : GoodHeight o0.height) (K : KeyParts)
    (hroot : K.root = Spec.node (o0.hashFunction.prim S) w (Spec.rustLen w) K.skSeed K.ps o0.height.toNat 0)
    (i : Nat) (h32 : i < 2 ^ 32) (hb : b = .debug ∨ i < 2 ^ (25 + o0.height.toNat)) (m : Bytes) :
    (basicAt K o0 i).signP b S m =
      match (if i < (if o0.height.toNat ≤ 24 then 2 ^ o0.height.toNat else 0) then sigW b S o0.hashFunction w o0.height.toNat K i m
        else none) with
      | some s => .ret s (basicAt K o0 (burn b i))
      | none => .panic (basicAt K o0 (burn b i)) := by
  have hs := basic_sign_rsAny (S := S) b hw o0 hop hh K hroot i h32 hb m
  have hlim : i < (if o0.height.toNat ≤ 24 then 2 ^ o0.height.toNat else 0) → i + 1 < 2 ^ 32 := by
    intro h
    split at h
    · rename_i h24
      have hpw : 2 ^ o0.height.toNat ≤ 2 ^ 24 := Nat.pow_le_pow_right (by omega) h24
      omega
    · omega
  have hpanic : (basicAt K o0 i).sign b S m = panic → (basicAt K o0 i).signP b S m = .panic (basicAt K o0 (burn b i)) := by
    intro hp
    rw [basicSign_eq] at hp
    rw [XMSSBasic.signP]
    have hst : fastSignStart b (basicAt K o0 i).sk = u32 b (i + 1) >>= fun next =>
        ok (i, K.skSeed, K.skPrf, K.ps, K.sk next) := by
      rw [show (basicAt K o0 i).sk = K.sk i from rfl, fastSignStart, be32At_sim _ _ (K.idx i (by omega)), ok_bind,
        sim_slice _ _ _ _ (K.seed_slice i), ok_bind, sim_slice _ _ _ _ (K.prf_slice i), ok_bind,
        sim_slice _ _ _ _ (K.ps_slice i), ok_bind]
      congr 1
      funext next
      rw [show idxBytes next ++ (K.sk i).drop 4 = K.sk next from K.reindex i next]
    rw [hst] at hp ⊢
    rw [burn]
    by_cases hlt : i + 1 < 2 ^ 32
    · rw [u32_lt b hlt, ok_bind, ok_bind] at hp
      rw [u32_lt b hlt, ok_bind, if_pos hlt]
      dsimp only at hp ⊢
      cases hx : basicSignWrite b S (basicAt K o0 i) m i K.skSeed K.skPrf K.ps (K.sk (i + 1)) with
      | ok y => rw [hx] at hp; cases hp
      | err e => rfl
      | panic => rfl
    · rw [if_neg hlt]
      cases b with
      | debug =>
        rw [u32_debug (by omega)]
        rfl
      | release =>
        rw [u32_release, show (i + 1) % 2 ^ 32 = 0 by omega, ok_bind, ok_bind] at hp
        rw [u32_release, show (i + 1) % 2 ^ 32 = 0 by omega, ok_bind, if_pos rfl]
        dsimp only at hp ⊢
        cases hx : basicSignWrite .release S (basicAt K o0 i) m i K.skSeed K.skPrf K.ps (K.sk 0) with
        | ok y => rw [hx] at hp; cases hp
        | err e => rfl
        | panic => rfl
  by_cases hc : i < (if o0.height.toNat ≤ 24 then 2 ^ o0.height.toNat else 0)
  · rw [if_pos hc] at hs ⊢
    cases hsg : sigW b S o0.hashFunction w o0.height.toNat K i m with
    | none => rw [hsg] at hs; exact hpanic hs
    | some s =>
      rw [hsg] at hs
      dsimp only
      rw [burn, if_pos (hlim hc)]
      exact (basicSignP_ret b S _ m _ _).mpr hs
  · rw [if_neg hc] at hs ⊢
    exact hpanic hs

theorem basic_caught_rs (b : Build) {S : Sha256} {w : Nat} (hw : Spec.RangeW w) (o0 : XMSSBasic)
    (hop : o0.params = ⟨wotsParams w, o0.height.toNat⟩) (hh : GoodHeight o0.height) (K : KeyParts)
    (hroot : K.root = Spec.node (o0.hashFunction.prim S) w (Spec.rustLen w) K.skSeed K.ps o0.height.toNat 0)
    (cs : List Call) : ∀ i, i < 2 ^ 32 →
      (b = .debug ∨ 8 ≤ o0.height.toNat ∨ i + cs.length ≤ 2 ^ (25 + o0.height.toNat) ∧
        ∀ n, Call.setIndex n ∈ cs → n.toNat + cs.length ≤ 2 ^ (25 + o0.height.toNat)) →
    ∃ j, j < 2 ^ 32 ∧ runCaught (XMSSBasic.caught b S) (basicAt K o0 i) cs =
        ((Spec.burningLoose (if o0.height.toNat ≤ 24 then 2 ^ o0.height.toNat else 0) (b = .release)
          (sigW b S o0.hashFunction w o0.height.toNat K) i cs).1, basicAt K o0 j) ∧
      j = (Spec.burningLoose (if o0.height.toNat ≤ 24 then 2 ^ o0.height.toNat else 0) (b = .release)
          (sigW b S o0.hashFunction w o0.height.toNat K) i cs).2 := by
  have h8 : 8 ≤ o0.height.toNat → 2 ^ 32 ≤ 2 ^ (25 + o0.height.toNat) := fun h => Nat.pow_le_pow_right (by omega) (by omega)
  induction cs with
  | nil => intro i hi _; exact ⟨i, hi, rfl, rfl⟩
  | cons c cs ih =>
    intro i hi hb
    rw [List.length_cons] at hb
    cases c with
    | setIndex n =>
      obtain ⟨j, h1, h2, h3⟩ := ih n.toNat n.toNat_lt (by
        rcases hb with h | h | ⟨_, h⟩
        · exact Or.inl h
        · exact Or.inr (Or.inl h)
        · refine Or.inr (Or.inr ⟨?_, fun n hn => ?_⟩)
          · have := h n List.mem_cons_self; omega
          · have := h n (List.mem_cons_of_mem _ hn); omega)
      refine ⟨j, h1, ?_, ?_⟩
      · rw [runCaught, XMSSBasic.caught, basic_setIndex_rs K o0 i n.toNat n.toNat_lt]
        dsimp only
        rw [show ({ basicAt K o0 i with toXMSSBase := (basicAt K o0 n.toNat).toXMSSBase } : XMSSBasic) = basicAt K o0 n.toNat from rfl, h2]
        rfl
      · rw [h3]; rfl
    | sign m =>
      have hburn : burn b i < 2 ^ 32 := by rw [burn]; split; omega; split; omega; omega
      obtain ⟨j, h1, h2, h3⟩ := ih (burn b i) hburn (by
        rcases hb with h | h | ⟨h0, h⟩
        · exact Or.inl h
        · exact Or.inr (Or.inl h)
        · refine Or.inr (Or.inr ⟨?_, fun n hn => ?_⟩)
          · rw [burn]; split; omega; split; omega; omega
          · have := h n (List.mem_cons_of_mem _ hn); omega)
      have e := basic_signP_rs (S := S) b hw o0 hop hh K hroot i hi (by
        rcases hb with h | h | ⟨h0, h⟩
        · exact Or.inl h
        · have := h8 h; exact Or.inr (by omega)
        · exact Or.inr (by omega)) m
      have hnext : (if i + 1 < 2 ^ 32 then i + 1 else if (decide (b = .release)) = true then 0 else i) = burn b i := by
        rw [burn]; simp only [decide_eq_true_eq]
      refine ⟨j, h1, ?_, ?_⟩
      · rw [runCaught, XMSSBasic.caught, e, Spec.burningLoose]
        simp only [hnext]
        by_cases hc : i < (if o0.height.toNat ≤ 24 then 2 ^ o0.height.toNat else 0)
        · rw [if_pos hc, if_pos hc]
          cases sigW b S o0.hashFunction w o0.height.toNat K i m with
          | none => simp only [Fate.reply, h2, Option.map_none]
          | some s => simp only [Fate.reply, h2, Option.map_some]
        · rw [if_neg hc, if_neg hc]
          simp only [Fate.reply, h2]
      · rw [h3, Spec.burningLoose]
        simp only [hnext]

end Qrl.Rs
