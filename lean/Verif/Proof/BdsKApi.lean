import Verif.Proof.BdsK
/-!
The fast functions with any traversal parameter `κ`: as `Verif/Proof/FastApi` and `Verif/Proof/CLow`, where `κ = 2`.
-/

namespace Qrl.BK

open Outcome

/-- The parameters that `xmss_set_params` accepts for an even height. -/
def KSet (κ h : Nat) : Prop := 2 ≤ κ ∧ κ % 2 = 0 ∧ κ < h

/-- Those for which the offsets of retained nodes do not wrap around. -/
def KOk (κ h : Nat) : Prop := KSet κ h ∧ κ ≤ 26

variable {κ : Nat}

theorem advanceLoop_add (S : Sha256) (hf : HashFn) (sk : Bytes) (p : XmssParams) (ps : Bytes) (m n : Nat) :
    ∀ (j : Nat) (st : BdsState), advanceLoop κ S hf sk p ps (m + n) j st =
      (advanceLoop κ S hf sk p ps m j st >>= fun st => advanceLoop κ S hf sk p ps n (j + m) st) := by
  induction m with
  | zero => intro j st; rw [Nat.zero_add]; rfl
  | succ m ih =>
    intro j st
    rw [show m + 1 + n = (m + n) + 1 by omega, advanceLoop, advanceLoop]
    cases bdsRound κ S hf st j sk p ps {} with
    | throw e => rfl
    | ub => rfl
    | ok st1 =>
      simp only [ok_bind]
      cases bdsTreehashUpdate κ S hf sk p ps {} ((p.h - κ) >>> 1) st1 with
      | throw e => rfl
      | ub => rfl
      | ok st2 =>
        simp only [ok_bind]
        rw [ih (j + 1) st2, show j + 1 + m = j + (m + 1) by omega]

theorem bdsRound_addr (S : Sha256) (hf : HashFn) (st : BdsState) (t : Nat) (sk : Bytes) (p : XmssParams) (ps : Bytes)
    (a b c d e : Nat) : bdsRound κ S hf st t sk p ps ⟨0, 0, 0, a, b, c, d, e⟩ = bdsRound κ S hf st t sk p ps {} := rfl

theorem bdsTreehashUpdate_addr (S : Sha256) (hf : HashFn) (sk : Bytes) (p : XmssParams) (ps : Bytes)
    (a b c d e : Nat) (n : Nat) : ∀ st, bdsTreehashUpdate κ S hf sk p ps ⟨0, 0, 0, a, b, c, d, e⟩ n st =
      bdsTreehashUpdate κ S hf sk p ps {} n st := by
  induction n with
  | zero => intro st; rfl
  | succ n ih =>
    intro st
    rw [bdsTreehashUpdate, bdsTreehashUpdate]
    simp only [treehashUpdate_addr, ih]

/-- The traversal state at index `t`, starting from the state made by key generation. -/
def stAt (κ : Nat) (S : Sha256) (hf : HashFn) (p : XmssParams) (sk ps : Bytes) (st0 : BdsState) (t : Nat) : BdsState :=
  match advanceLoop κ S hf sk p ps t 0 st0 with
  | .ok st => st
  | _ => st0

theorem adv_invR (S : Sha256) (hf : HashFn) (p : XmssParams) (sk ps : Bytes) (h1 : 1 ≤ p.wots.len)
    (hk : KSet κ p.h) (hh4 : 4 ≤ p.h) (hh30 : p.h ≤ 30) (hev : p.h % 2 = 0) {st0 : BdsState}
    (H : BdsInv κ (Spec.node (hf.prim S) p.wots.w p.wots.len sk ps) p.h 0 (fun _ => none) st0) (t : Nat)
    (ht : t < 2 ^ p.h) (hrd : ∀ u, u < t → Reads κ p.h u) :
    advanceLoop κ S hf sk p ps t 0 st0 = ok (stAt κ S hf p sk ps st0 t) ∧
      ∃ T, BdsInv κ (Spec.node (hf.prim S) p.wots.w p.wots.len sk ps) p.h t T (stAt κ S hf p sk ps st0 t) := by
  induction t with
  | zero => exact ⟨rfl, _, H⟩
  | succ t ih =>
    obtain ⟨e1, T, i1⟩ := ih (by omega) (fun u hu => hrd u (by omega))
    obtain ⟨st1, st2, T2, r1, r2, r3⟩ := bdsAdvance_eq hk.1 hk.2.1 S hf sk ps p h1 hk.2.2 hh4 hh30 hev (hrd t (by omega)) (by omega) i1 0 0 0 0 0 0 0 0 0 0
    have e2 : advanceLoop κ S hf sk p ps (t + 1) 0 st0 = ok st2 := by
      rw [advanceLoop_add S hf sk p ps t 1, e1, ok_bind, Nat.zero_add, advanceLoop]
      rw [show bdsRound κ S hf (stAt κ S hf p sk ps st0 t) t sk p ps {} = ok st1 from r1, ok_bind,
        show bdsTreehashUpdate κ S hf sk p ps {} ((p.h - κ) >>> 1) st1 = ok st2 from r2, ok_bind]
      rfl
    have e3 : stAt κ S hf p sk ps st0 (t + 1) = st2 := by rw [stAt, e2]
    rw [e3]
    exact ⟨e2, T2, r3⟩

theorem adv_inv (S : Sha256) (hf : HashFn) (p : XmssParams) (sk ps : Bytes) (h1 : 1 ≤ p.wots.len)
    (hk : KOk κ p.h) (hh4 : 4 ≤ p.h) (hh30 : p.h ≤ 30) (hev : p.h % 2 = 0) {st0 : BdsState}
    (H : BdsInv κ (Spec.node (hf.prim S) p.wots.w p.wots.len sk ps) p.h 0 (fun _ => none) st0) (t : Nat)
    (ht : t < 2 ^ p.h) :
    advanceLoop κ S hf sk p ps t 0 st0 = ok (stAt κ S hf p sk ps st0 t) ∧
      ∃ T, BdsInv κ (Spec.node (hf.prim S) p.wots.w p.wots.len sk ps) p.h t T (stAt κ S hf p sk ps st0 t) :=
  adv_invR S hf p sk ps h1 hk.1 hh4 hh30 hev H t ht (fun u hu => reads_of_le hk.2 (by omega))

/-- The round made by `sign` is the same step. -/
theorem adv_step (S : Sha256) (hf : HashFn) (p : XmssParams) (sk ps : Bytes) (h1 : 1 ≤ p.wots.len)
    (hk : KOk κ p.h) (hh4 : 4 ≤ p.h) (hh30 : p.h ≤ 30) (hev : p.h % 2 = 0) {st0 : BdsState}
    (H : BdsInv κ (Spec.node (hf.prim S) p.wots.w p.wots.len sk ps) p.h 0 (fun _ => none) st0) (t : Nat)
    (ht : t + 1 < 2 ^ p.h) (a b c d e : Nat) :
    (bdsRound κ S hf (stAt κ S hf p sk ps st0 t) t sk p ps ⟨0, 0, 0, a, b, c, d, e⟩ >>= fun st =>
      bdsTreehashUpdate κ S hf sk p ps ⟨0, 0, 0, a, b, c, d, e⟩ ((p.h - κ) >>> 1) st) =
      ok (stAt κ S hf p sk ps st0 (t + 1)) := by
  have e1 := (adv_inv S hf p sk ps h1 hk hh4 hh30 hev H t (by omega)).1
  have e2 := (adv_inv S hf p sk ps h1 hk hh4 hh30 hev H (t + 1) ht).1
  rw [advanceLoop_add S hf sk p ps t 1, e1, ok_bind, Nat.zero_add, advanceLoop] at e2
  rw [bdsRound_addr (κ := κ)]
  simp only [bdsTreehashUpdate_addr]
  rw [← e2]
  cases bdsRound κ S hf (stAt κ S hf p sk ps st0 t) t sk p ps {} with
  | throw e => rfl
  | ub => rfl
  | ok st1 =>
    simp only [ok_bind]
    cases bdsTreehashUpdate κ S hf sk p ps {} ((p.h - κ) >>> 1) st1 with
    | throw e => rfl
    | ub => rfl
    | ok st2 => rfl

/-- Skipping from `i` to `n`. -/
theorem adv_skip (S : Sha256) (hf : HashFn) (p : XmssParams) (sk ps : Bytes) (h1 : 1 ≤ p.wots.len)
    (hk : KOk κ p.h) (hh4 : 4 ≤ p.h) (hh30 : p.h ≤ 30) (hev : p.h % 2 = 0) {st0 : BdsState}
    (H : BdsInv κ (Spec.node (hf.prim S) p.wots.w p.wots.len sk ps) p.h 0 (fun _ => none) st0) (i n : Nat)
    (hin : i ≤ n) (hn : n < 2 ^ p.h) :
    advanceLoop κ S hf sk p ps (n - i) i (stAt κ S hf p sk ps st0 i) = ok (stAt κ S hf p sk ps st0 n) := by
  have e1 := (adv_inv S hf p sk ps h1 hk hh4 hh30 hev H i (by omega)).1
  have e2 := (adv_inv S hf p sk ps h1 hk hh4 hh30 hev H n hn).1
  rw [show n = i + (n - i) by omega, advanceLoop_add, e1, ok_bind, Nat.zero_add] at e2
  rw [e2]
  congr 2
  omega

theorem authOut_path (P : Nat → Bytes) (h : Nat) (auth : List Cell) (hauth : ∀ i, i < h → auth[i]? = some (some (P i))) (n : Nat) :
    ∀ l : Nat, l + n ≤ h → authOut auth n l = ok ((List.range' l n).map P) := by
  induction n with
  | zero => intro l _; rfl
  | succ n ih =>
    intro l hl
    rw [authOut, rdUse_eq_ok (hauth l (by omega)), ok_bind, ih (l + 1) (by omega), ok_bind]
    rfl

/-- `xmssfast_Signmsg` on a key buffer and a state with any path `P`. -/
theorem xmssfastSignmsgBuf_eqP (S : Sha256) (hf : HashFn) {w : Nat} {p : XmssParams} {k q : Nat}
    (hp : SpecParams w p.wots k q) (K : KeyParts) {st st' : BdsState} (P : Nat → Bytes) (hP32 : ∀ i, i < p.h → (P i).length = 32)
    (hP : ∀ i, i < p.h → st.auth[i]? = some (some (P i)))
    (i : Nat) (h32 : i < 2 ^ 32)
    (hnext : ∀ b c d : Nat, (if i < 2 ^ p.h - 1 then
        (bdsRound κ S hf st i K.skSeed p K.ps ⟨0, 0, 0, 0, i, b, c, d⟩ >>= fun st =>
          bdsTreehashUpdate κ S hf K.skSeed p K.ps ⟨0, 0, 0, 0, i, b, c, d⟩ ((p.h - κ) >>> 1) st)
      else ok st) = ok st')
    (t sig msg : Bytes) (msglen : Nat) :
    xmssfastSignmsgBuf κ S hf p (K.sk i ++ t) st sig msg msglen =
      if sig.length < Spec.signatureSize w p.h ∨ msg.length < msglen then ub
      else ok (0, K.sk (i + 1) ++ t,
        Spec.be 4 i ++ Spec.PRF (hf.prim S) K.skPrf (Spec.be 32 i) ++
          (Spec.wotsSig (hf.prim S) K.skSeed K.ps i (Spec.wotsDigits w
            (Spec.digest (hf.prim S) (Spec.PRF (hf.prim S) K.skPrf (Spec.be 32 i)) K.root i (msg.take msglen)))).flatten ++
          ((List.range p.h).map P).flatten ++ sig.drop (Spec.signatureSize w p.h), st') := by
  have hl := K.length_sk
  have hks : p.wots.keysize = 32 * p.wots.len := by rw [hp.good.keysize, Nat.mul_comm]
  have hsz : Spec.signatureSize w p.h = 36 + 32 * p.wots.len + 32 * p.h := by rw [Spec.signatureSize, hp.len]
  rw [hsz]
  by_cases c1 : msg.length < msglen
  · rw [if_pos (by omega), xmssfastSignmsgBuf]
    simp only [be32At_append (show 4 ≤ (K.sk i).length by have := hl i; omega), slice_append (show 4 + 32 ≤ (K.sk i).length by have := hl i; omega),
      slice_append (show 36 + 32 ≤ (K.sk i).length by rw [hl]; omega), slice_append (show 68 + 32 ≤ (K.sk i).length by rw [hl]; omega),
      K.idx i h32, K.seed_slice, K.prf_slice, K.ps_slice, ok_bind, K.put,
      slice_append (show 100 + 32 ≤ (K.sk (i + 1)).length by rw [hl]), K.root_slice, slice_short (show msg.length < 0 + msglen by omega)]
    rfl
  have hpath := authOut_path P p.h st.auth hP p.h 0 (by omega)
  rw [xmssfastSignmsgBuf]
  simp only [be32At_append (show 4 ≤ (K.sk i).length by have := hl i; omega), slice_append (show 4 + 32 ≤ (K.sk i).length by have := hl i; omega),
      slice_append (show 36 + 32 ≤ (K.sk i).length by rw [hl]; omega), slice_append (show 68 + 32 ≤ (K.sk i).length by rw [hl]; omega),
      K.idx i h32, K.seed_slice, K.prf_slice, K.ps_slice, ok_bind, K.put,
      slice_append (show 100 + 32 ≤ (K.sk (i + 1)).length by rw [hl]), K.root_slice,
      slice_eq_ok (show 0 + msglen ≤ msg.length by omega), prf_eq, toByte_eq_be, hMsg_eq, Adrs.setType, Adrs.setOTS, getSeed_eq, List.drop_zero]
  obtain ⟨b', c', d', e⟩ := wotsSign_spec S hf hp (Spec.Hmsg (hf.prim S)
          (Spec.PRF (hf.prim S) K.skPrf (Spec.be 32 i) ++ K.root ++ Spec.be 32 i) (msg.take msglen)) K.skSeed K.ps i 0 0 0
    (length_Hmsg ..)
  rw [e]
  simp only [ok_bind]
  have hdl := length_wotsDigits hp (Spec.Hmsg (hf.prim S)
          (Spec.PRF (hf.prim S) K.skPrf (Spec.be 32 i) ++ K.root ++ Spec.be 32 i) (msg.take msglen)) (length_Hmsg ..)
  have hwl : (Spec.wotsSig (hf.prim S) K.skSeed K.ps i (Spec.wotsDigits w (Spec.Hmsg (hf.prim S)
          (Spec.PRF (hf.prim S) K.skPrf (Spec.be 32 i) ++ K.root ++ Spec.be 32 i) (msg.take msglen)))).flatten.length =
          32 * p.wots.len := by
    rw [length_flatten32 _ (mem_wotsSig S hf _ _ _ _)]
    simp only [Spec.wotsSig, List.length_map, List.length_zipIdx, hdl]
  rw [hpath]
  simp only [ok_bind]
  rw [← List.range_eq_range']
  have hpl : ((List.range p.h).map P).flatten.length = 32 * p.h := by
    rw [length_flatten32 _ (by
      intro x hx
      obtain ⟨l, hl, rfl⟩ := List.mem_map.mp hx
      exact hP32 l (List.mem_range.mp hl))]
    simp
  have hround : ∀ s : Bytes, (if i < 2 ^ p.h - 1 then do
      let st ← bdsRound κ S hf st i K.skSeed p K.ps ⟨0, 0, 0, 0, i, b', c', d'⟩
      let st ← bdsTreehashUpdate κ S hf K.skSeed p K.ps ⟨0, 0, 0, 0, i, b', c', d'⟩ ((p.h - κ) >>> 1) st
      ok ((0 : Int), K.sk (i + 1) ++ t, s, st)
    else ok ((0 : Int), K.sk (i + 1) ++ t, s, st)) =
      ok ((0 : Int), K.sk (i + 1) ++ t, s, st') := by
    intro s
    have hn := hnext b' c' d'
    by_cases hc : i < 2 ^ p.h - 1
    · rw [if_pos hc] at hn ⊢
      obtain ⟨s1, e1, e2⟩ := bind_eq_ok.mp hn
      rw [e1, ok_bind, e2, ok_bind]
    · rw [if_neg hc] at hn ⊢
      rw [Outcome.ok.inj hn]
  simp only [hround, hks]
  have := putSeq sig (idxBytes i) (Spec.PRF (hf.prim S) K.skPrf (Spec.be 32 i)) _ _ (32 * p.wots.len) (32 * p.h) rfl
    (length_PRF ..) hwl hpl (fun s => ok ((0 : Int), K.sk (i + 1) ++ t, s, st'))
  rw [this]
  by_cases c5 : sig.length < 36 + 32 * p.wots.len + 32 * p.h
  · rw [if_pos c5, if_pos (by omega)]
  · rw [if_neg c5, if_neg (by omega)]
    rw [idxBytes_eq]
    rfl

/-- `xmssfast_Signmsg` on a key buffer and the state that belongs to it. -/
theorem xmssfastSignmsgBuf_eq (S : Sha256) (hf : HashFn) {w : Nat} {p : XmssParams} {k q : Nat}
    (hp : SpecParams w p.wots k q) (hlen : 1 ≤ p.wots.len) (hk : KOk κ p.h) (hh4 : 4 ≤ p.h) (hh30 : p.h ≤ 30) (hev : p.h % 2 = 0)
    (K : KeyParts) {st0 : BdsState}
    (hst : BdsInv κ (Spec.node (hf.prim S) p.wots.w p.wots.len K.skSeed K.ps) p.h 0 (fun _ => none) st0)
    (i : Nat) (h32 : i < 2 ^ 32) (t sig msg : Bytes) (msglen : Nat) :
    xmssfastSignmsgBuf κ S hf p (K.sk i ++ t) (stAt κ S hf p K.skSeed K.ps st0 (min i (2 ^ p.h - 1))) sig msg msglen =
      if sig.length < Spec.signatureSize w p.h ∨ msg.length < msglen then ub
      else ok (0, K.sk (i + 1) ++ t,
        Spec.bufferSignature (hf.prim S) w p.h K.skSeed K.skPrf K.ps K.root i (min i (2 ^ p.h - 1)) (msg.take msglen) ++
          sig.drop (Spec.signatureSize w p.h), stAt κ S hf p K.skSeed K.ps st0 (min (i + 1) (2 ^ p.h - 1))) := by
  have hpos := Nat.two_pow_pos p.h
  generalize hj : min i (2 ^ p.h - 1) = j
  have hjlt : j < 2 ^ p.h := by omega
  obtain ⟨-, T, hinv⟩ := adv_inv S hf p K.skSeed K.ps hlen hk hh4 hh30 hev hst j hjlt
  rw [xmssfastSignmsgBuf_eqP S hf hp K (path (Spec.node (hf.prim S) p.wots.w p.wots.len K.skSeed K.ps) j)
    (fun l _ => length_node S hf _ _ _ _ hlen _ _) hinv.auth.auth i h32
    (st' := stAt κ S hf p K.skSeed K.ps st0 (min (i + 1) (2 ^ p.h - 1))) (by
      intro b c d
      by_cases hc : i < 2 ^ p.h - 1
      · rw [if_pos hc]
        have hji : j = i := by omega
        rw [hji, adv_step S hf p K.skSeed K.ps hlen hk hh4 hh30 hev hst i (by omega) 0 i b c d, Nat.min_eq_left (by omega)]
      · rw [if_neg hc]
        congr 2
        omega), Spec.bufferSignature, Spec.authPath, hp.len, hp.pw]
  rfl

/-- `xmssfast_update` on a key buffer and the state that belongs to it. -/
theorem xmssfastUpdateBuf_eq (S : Sha256) (hf : HashFn) {p : XmssParams} (hlen : 1 ≤ p.wots.len)
    (hk : KOk κ p.h) (hh4 : 4 ≤ p.h) (hh30 : p.h ≤ 30) (hev : p.h % 2 = 0) (K : KeyParts) {st0 : BdsState}
    (hst : BdsInv κ (Spec.node (hf.prim S) p.wots.w p.wots.len K.skSeed K.ps) p.h 0 (fun _ => none) st0)
    (i : Nat) (h32 : i < 2 ^ 32) (t : Bytes) (n : UInt32) :
    xmssfastUpdateBuf κ S hf p (K.sk i ++ t) (stAt κ S hf p K.skSeed K.ps st0 (min i (2 ^ p.h - 1))) n =
      if n.toNat ≥ 2 ^ p.h ∨ n.toNat < i then
        .raise .invalidArgument (K.sk i ++ t, stAt κ S hf p K.skSeed K.ps st0 (min i (2 ^ p.h - 1)))
      else .ret 0 (K.sk n.toNat ++ t, stAt κ S hf p K.skSeed K.ps st0 (min n.toNat (2 ^ p.h - 1))) := by
  have hl := K.length_sk
  rw [xmssfastUpdateBuf, if_neg (by omega), be32At_append (show 4 ≤ (K.sk i).length by have := hl i; omega), K.idx i h32]
  dsimp only
  by_cases c1 : n.toNat ≥ 2 ^ p.h
  · rw [if_pos c1, if_pos (Or.inl c1)]
  rw [if_neg c1]
  by_cases c2 : n.toNat < i
  · rw [if_pos c2, if_pos (Or.inr c2)]
  rw [if_neg c2, if_neg (by omega), Nat.min_eq_left (show i ≤ 2 ^ p.h - 1 by omega), Nat.min_eq_left (show n.toNat ≤ 2 ^ p.h - 1 by omega)]
  simp only [slice_append (show 4 + 32 ≤ (K.sk i).length by have := hl i; omega),
    slice_append (show 68 + 32 ≤ (K.sk i).length by rw [hl]; omega), K.seed_slice, K.ps_slice, ok_bind,
    adv_skip S hf p K.skSeed K.ps hlen hk hh4 hh30 hev hst i n.toNat (by omega) (by omega), K.put, Step.ofOutcome]

/-- Every history of the fast functions on a key buffer and the state that belongs to it. -/
theorem cRun_eq (S : Sha256) (hf : HashFn) {w : Nat} {p : XmssParams} {k q : Nat}
    (hp : SpecParams w p.wots k q) (hlen : 1 ≤ p.wots.len) (hk : KOk κ p.h) (hh4 : 4 ≤ p.h) (hh30 : p.h ≤ 30) (hev : p.h % 2 = 0)
    (K : KeyParts) {st0 : BdsState}
    (hst : BdsInv κ (Spec.node (hf.prim S) p.wots.w p.wots.len K.skSeed K.ps) p.h 0 (fun _ => none) st0) (t : Bytes) (cs : List CCall) :
    ∀ i : Nat, max i (2 ^ p.h) + cs.length ≤ 2 ^ 32 →
    cRun κ S hf p (K.sk i ++ t, stAt κ S hf p K.skSeed K.ps st0 (min i (2 ^ p.h - 1))) cs =
      (Spec.uncheckedRun (Spec.signatureSize w p.h) (2 ^ p.h)
        (fun j m => Spec.bufferSignature (hf.prim S) w p.h K.skSeed K.skPrf K.ps K.root j (min j (2 ^ p.h - 1)) m) i cs).map
        fun x => (x.1, (K.sk x.2 ++ t, stAt κ S hf p K.skSeed K.ps st0 (min x.2 (2 ^ p.h - 1)))) := by
  induction cs with
  | nil => intro i _; rfl
  | cons c cs ih =>
    intro i hi
    rw [List.length_cons] at hi
    cases c with
    | update n =>
      rw [cRun, cCall, xmssfastUpdateBuf_eq S hf hlen hk hh4 hh30 hev K hst i (by omega) t n, Spec.uncheckedRun]
      by_cases c1 : n.toNat ≥ 2 ^ p.h ∨ n.toNat < i
      · rw [if_pos c1, if_pos c1]
        simp only [Option.bind_eq_bind, Option.bind_some]
        rw [ih i (by omega), Option.map_map]
        generalize Spec.uncheckedRun _ _ _ i cs = o
        cases o <;> rfl
      · rw [if_neg c1, if_neg c1]
        simp only [Option.bind_eq_bind, Option.bind_some]
        rw [ih n.toNat (by omega), Option.map_map]
        generalize Spec.uncheckedRun _ _ _ n.toNat cs = o
        cases o <;> rfl
    | sign buf msg msglen =>
      rw [cRun, cCall, xmssfastSignmsgBuf_eq S hf hp hlen hk hh4 hh30 hev K hst i (by omega) t buf msg msglen, Spec.uncheckedRun]
      by_cases c1 : buf.length < Spec.signatureSize w p.h ∨ msg.length < msglen
      · rw [if_pos c1, if_pos c1]
        rfl
      · rw [if_neg c1, if_neg c1]
        simp only [Option.bind_eq_bind, Option.bind_some]
        rw [ih (i + 1) (by omega), Option.map_map]
        generalize Spec.uncheckedRun _ _ _ (i + 1) cs = o
        cases o <;> rfl

/-- `xmssfast_Genkeypair` with a fresh state: the buffers and a state that belongs to the key. -/
theorem xmssfastGenkeypairBuf_eq (S : Sha256) (hf : HashFn) (p : XmssParams) (hlen : 1 ≤ p.wots.len) (hk : KSet κ p.h) (hh4 : 4 ≤ p.h) (hh30 : p.h ≤ 30)
    (hev : p.h % 2 = 0) (pk sk seed : Bytes) :
    ∃ st, BdsInv κ (Spec.node (hf.prim S) p.wots.w p.wots.len ((shake256 96 (seed.take 48)).take 32) ((shake256 96 (seed.take 48)).drop 64))
        p.h 0 (fun _ => none) st ∧
      xmssfastGenkeypairBuf κ S hf p pk sk (bdsInit κ p.h) seed =
      if pk.length < 64 ∨ sk.length < 132 ∨ seed.length < 48 then ub
      else
        let x := shake256 96 (seed.take 48)
        let root := Spec.node (hf.prim S) p.wots.w p.wots.len (x.take 32) (x.drop 64) p.h 0
        ok (0, root ++ x.drop 64 ++ pk.drop 64, List.replicate 4 0 ++ x ++ root ++ sk.drop 132, st) := by
  have e := genBuf pk sk seed (fun a b => treehashSetup κ S hf p.h 0 (bdsInit κ p.h) a p b {})
    (fun pk sk st => ((0 : Int), pk, sk, st)) (by
      intro a b r st h
      obtain ⟨st', h1, h2⟩ := treehashSetup_eq hk.1 S hf p a b hlen hk.2.2 hh4 hh30
      rw [h1] at h
      cases h
      exact length_node S hf _ _ _ _ hlen _ _)
  obtain ⟨st, h1, h2⟩ := treehashSetup_eq hk.1 S hf p ((shake256 96 (seed.take 48)).take 32) ((shake256 96 (seed.take 48)).drop 64) hlen hk.2.2 hh4 hh30
  refine ⟨st, h2, ?_⟩
  rw [xmssfastGenkeypairBuf, if_neg (by rw [Nat.and_one_is_mod]; omega)]
  refine Eq.trans e ?_
  by_cases c1 : pk.length < 64 ∨ sk.length < 100 ∨ seed.length < 48
  · rw [if_pos c1, if_pos (by omega)]
  rw [if_neg c1, h1, ok_bind]
  by_cases c2 : sk.length < 132
  · simp only [if_pos c2]
    rw [if_pos (by omega)]
  · simp only [if_neg c2]
    rw [if_neg (by omega)]


end Qrl.BK
