import Verif.Spec.LossyW
import Verif.Proof.Honest

namespace Qrl

open Outcome

/-- What is known about the parameters of a usable `w`. -/
structure AnyParams (w : Nat) (p : WotsParams) (k q : Nat) : Prop where
  kq : k * q = 8
  pw : p.w = w
  logW : p.logW = k
  lg : Spec.lgW w = k
  e1 : p.len1 = 32 * q
  l1 : Spec.len1 w = p.len1
  l2 : Spec.len2 w = p.len2
  plen : p.len = p.len1 + p.len2
  keysize : p.keysize = p.len * 32
  len2 : 1 ≤ p.len2
  small : p.len ≤ 300
  wpos : 1 ≤ w
  set : wotsSetParams w = ok p

theorem usable_log {w : Nat} (h : Spec.UsableW w) :
    (Nat.log2 w = 1 ∧ w < 4) ∨ (Nat.log2 w = 2 ∧ w < 8) ∨ (Nat.log2 w = 4 ∧ w < 32) ∨ (Nat.log2 w = 8 ∧ w < 512) := by
  have hw : w ≠ 0 := by rcases h with h | h | h <;> omega
  rcases h with ⟨h1, h2⟩ | ⟨h1, h2⟩ | ⟨h1, h2⟩
  · rcases Nat.lt_or_ge w 4 with h4 | h4
    · have a := (Nat.le_log2 hw (k := 1)).mpr (by omega)
      have b := (Nat.log2_lt hw (k := 2)).mpr (by omega)
      omega
    · have a := (Nat.le_log2 hw (k := 2)).mpr (by omega)
      have b := (Nat.log2_lt hw (k := 3)).mpr (by omega)
      omega
  · have a := (Nat.le_log2 hw (k := 4)).mpr (by omega)
    have b := (Nat.log2_lt hw (k := 5)).mpr (by omega)
    omega
  · have a := (Nat.le_log2 hw (k := 8)).mpr (by omega)
    have b := (Nat.log2_lt hw (k := 9)).mpr (by omega)
    omega

theorem anyParams {w : Nat} (h : Spec.UsableW w) : ∃ p k q, AnyParams w p k q := by
  have hw2 : 2 ≤ w := by rcases h with h | h | h <;> omega
  have hlog := usable_log h
  obtain ⟨k, q, hk, hkq, hq⟩ : ∃ k q, Nat.log2 w = k ∧ k * q = 8 ∧ 256 / k = 32 * q := by
    rcases hlog with h | h | h | h
    · exact ⟨1, 8, h.1, rfl, rfl⟩
    · exact ⟨2, 4, h.1, rfl, rfl⟩
    · exact ⟨4, 2, h.1, rfl, rfl⟩
    · exact ⟨8, 1, h.1, rfl, rfl⟩
  have hk0 : k ≠ 0 := by rintro rfl; simp at hkq
  have hq0 : q ≠ 0 := by rintro rfl; simp at hkq
  have hq8 : q ≤ 8 := by
    rw [← hkq]; exact Nat.le_mul_of_pos_left q (by omega)
  have hprod : 32 * q * (w - 1) < 2 ^ 20 := by
    have : 32 * q * (w - 1) ≤ 32 * 8 * 511 := Nat.mul_le_mul (by omega) (by rcases h with h | h | h <;> omega)
    omega
  have hpos : 0 < 32 * q * (w - 1) := Nat.mul_pos (by omega) (by omega)
  have hset : wotsSetParams w = ok ⟨32 * q, Nat.log2 (32 * q * (w - 1)) / k + 1,
      32 * q + (Nat.log2 (32 * q * (w - 1)) / k + 1), w, k, (32 * q + (Nat.log2 (32 * q * (w - 1)) / k + 1)) * 32⟩ := by
    rw [wotsSetParams, if_neg (by rcases h with h | h | h <;> omega)]
    simp only [hk, if_neg hk0, show 8 * 32 / k = 32 * q from hq]
    rw [Nat.mod_eq_of_lt (by omega), if_neg (by omega)]
  refine ⟨_, k, q, hkq, rfl, rfl, hk, rfl, ?_, ?_, rfl, rfl, Nat.le_add_left 1 _, ?_, by omega, hset⟩
  · simp [Spec.len1, Spec.lgW, hk, hq]
  · simp [Spec.len2, Spec.len1, Spec.lgW, hk, hq]
  · have : Nat.log2 (32 * q * (w - 1)) < 20 := (Nat.log2_lt (by omega)).mpr hprod
    have := Nat.div_le_self (Nat.log2 (32 * q * (w - 1))) k
    simp only
    omega

theorem AnyParams.len {w : Nat} {p : WotsParams} {k q : Nat} (h : AnyParams w p k q) : Spec.lenW w = p.len := by
  rw [Spec.lenW, h.l1, h.l2, h.plen]

theorem AnyParams.len_pos {w : Nat} {p : WotsParams} {k q : Nat} (h : AnyParams w p k q) : 1 ≤ p.len := by
  have := h.plen; have := h.len2; omega

/-- The positions cut from the `m` low groups of `t`. -/
def cutLow (w k t : Nat) : Nat → List Nat
  | 0 => []
  | m + 1 => ((t / 2 ^ (k * m)) &&& (w - 1)) :: cutLow w k t m

theorem length_cutLow (w k t m : Nat) : (cutLow w k t m).length = m := by
  induction m with
  | zero => rfl
  | succ m ih => simp [cutLow, ih]

theorem cutLow_eq (w k t m : Nat) :
    cutLow w k t m = (List.range m).map fun j => (t / 2 ^ (k * m - k * (j + 1))) &&& (w - 1) := by
  induction m with
  | zero => rfl
  | succ m ih =>
    rw [cutLow, ih, List.range_succ_eq_map, List.map_cons, List.map_map]
    congr 1
    · rw [Nat.zero_add, Nat.mul_succ, Nat.mul_one, Nat.add_sub_cancel]
    · apply List.map_congr_left
      intro j _
      simp only [Function.comp]
      rw [show k * (m + 1) - k * (j.succ + 1) = k * m - k * (j + 1) by
        simp only [Nat.mul_succ]; omega]

theorem cutByte_eq {w k q : Nat} (hk : Spec.lgW w = k) (hkq : k * q = 8) (b : UInt8) :
    Spec.cutByte w b = cutLow w k b.toNat q := by
  have hk0 : 0 < k := by
    rcases Nat.eq_zero_or_pos k with h | h
    · rw [h] at hkq; simp at hkq
    · exact h
  have : 8 / k = q := by rw [← hkq, Nat.mul_div_cancel_left q hk0]
  rw [Spec.cutByte, hk, this, cutLow_eq, hkq]

theorem length_cutBytes {w k q : Nat} (hk : Spec.lgW w = k) (hkq : k * q = 8) (l : Bytes) :
    (l.flatMap (Spec.cutByte w)).length = q * l.length := by
  induction l with
  | nil => rfl
  | cons b l ih =>
    rw [List.flatMap_cons, List.length_append, ih, cutByte_eq hk hkq, length_cutLow, List.length_cons, Nat.mul_succ]
    omega

theorem baseWLoop_any {w : Nat} {p : WotsParams} {k q : Nat} (hp : AnyParams w p k q) (n : Nat) :
    ∀ (inp : Bytes) (t m : Nat), n ≤ m + q * inp.length →
      baseWLoop p inp t (k * m) n = ok ((cutLow w k t m ++ inp.flatMap (Spec.cutByte w)).take n) := by
  have hk : 0 < k := by
    rcases Nat.eq_zero_or_pos k with h | h
    · have := hp.kq; rw [h] at this; simp at this
    · exact h
  have hq : 0 < q := by
    rcases Nat.eq_zero_or_pos q with h | h
    · have := hp.kq; rw [h] at this; simp at this
    · exact h
  have step : ∀ (inp : Bytes) (t m n : Nat),
      (∀ (inp : Bytes) (t m : Nat), n ≤ m + q * inp.length →
        baseWLoop p inp t (k * m) n = ok ((cutLow w k t m ++ inp.flatMap (Spec.cutByte w)).take n)) →
      n + 1 ≤ (m + 1) + q * inp.length →
      (if k * (m + 1) < p.logW then (ub : Outcome (List Nat)) else do
        let ds ← baseWLoop p inp t (k * (m + 1) - p.logW) n
        ok (((t >>> (k * (m + 1) - p.logW)) &&& (p.w - 1)) :: ds)) =
      ok ((cutLow w k t (m + 1) ++ inp.flatMap (Spec.cutByte w)).take (n + 1)) := by
    intro inp t m n ih h
    have h1 : ¬ k * (m + 1) < p.logW := by
      rw [hp.logW, Nat.mul_succ]; omega
    have h2 : k * (m + 1) - p.logW = k * m := by rw [hp.logW, Nat.mul_succ]; omega
    rw [if_neg h1, h2, ih inp t m (by omega), ok_bind, hp.pw, Nat.shiftRight_eq_div_pow]
    simp [cutLow]
  induction n with
  | zero => intro inp t m _; simp [baseWLoop]
  | succ n ih =>
    intro inp t m h
    rw [baseWLoop.eq_def]
    dsimp only
    by_cases hm : m = 0
    · subst hm
      simp only [Nat.mul_zero, if_true]
      match inp with
      | [] => simp at h
      | b :: rest =>
        simp only [ok_bind, Nat.zero_add]
        have e8 : 8 = k * ((q - 1) + 1) := by rw [Nat.sub_add_cancel hq, hp.kq]
        have hle : n + 1 ≤ (q - 1 + 1) + q * rest.length := by
          rw [Nat.sub_add_cancel hq]; simp only [List.length_cons, Nat.mul_succ] at h; omega
        have := step rest b.toNat (q - 1) n ih hle
        rw [← e8] at this
        refine this.trans ?_
        rw [Nat.sub_add_cancel hq, List.flatMap_cons, cutByte_eq hp.lg hp.kq]
        simp [cutLow]
    · obtain ⟨m', rfl⟩ : ∃ m', m = m' + 1 := ⟨m - 1, by omega⟩
      have : k * (m' + 1) ≠ 0 := Nat.ne_of_gt (Nat.mul_pos hk (Nat.succ_pos _))
      simp only [this, if_false, ok_bind]
      exact step inp t m' n ih h

theorem baseW_any {w : Nat} {p : WotsParams} {k q : Nat} (hp : AnyParams w p k q) (n : Nat) (inp : Bytes)
    (h : n ≤ q * inp.length) : baseW p n inp = ok ((inp.flatMap (Spec.cutByte w)).take n) := by
  have := baseWLoop_any hp n inp 0 0 (by omega)
  simpa [baseW, cutLow] using this

theorem csum_fits_any {w : Nat} {p : WotsParams} {k q : Nat} (hp : AnyParams w p k q) (v : Nat) :
    p.len2 ≤ q * (toByte v ((p.len2 * k + 7) / 8)).length := by
  rw [length_toByte]
  have h1 : p.len2 * k ≤ 8 * ((p.len2 * k + 7) / 8) := by omega
  rw [← hp.kq, Nat.mul_comm p.len2 k, Nat.mul_assoc k q] at h1
  have hk : 0 < k := by
    rcases Nat.eq_zero_or_pos k with h | h
    · have := hp.kq; rw [h] at this; simp at this
    · exact h
  have := Nat.le_of_mul_le_mul_left h1 hk
  rw [Nat.mul_comm p.len2 k]
  have e := hp.kq
  rw [e] at this
  exact this

theorem signDigits_any {w : Nat} {p : WotsParams} {k q : Nat} (hp : AnyParams w p k q) (msg : Bytes)
    (hm : msg.length = 32) : signDigits p msg = ok (Spec.positions w msg) := by
  have h1 : p.len1 ≤ q * msg.length := by rw [hp.e1, hm, Nat.mul_comm]
  have h2 : (msg.flatMap (Spec.cutByte w)).take p.len1 = msg.flatMap (Spec.cutByte w) := by
    apply List.take_of_length_le; rw [length_cutBytes hp.lg hp.kq, hp.e1, hm, Nat.mul_comm]
  simp only [signDigits, baseW_any hp p.len1 msg h1, h2, ok_bind, hp.logW]
  rw [baseW_any hp p.len2 _ (csum_fits_any hp _)]
  simp only [ok_bind, Spec.positions, checksum_eq, hp.pw, hp.l2, hp.lg, toByte_eq_be, Nat.shiftLeft_eq]

theorem length_positions {w : Nat} {p : WotsParams} {k q : Nat} (hp : AnyParams w p k q) (msg : Bytes)
    (hm : msg.length = 32) : (Spec.positions w msg).length = p.len := by
  have := csum_fits_any hp ((((msg.flatMap (Spec.cutByte w)).map fun d => w - 1 - d).sum) *
    2 ^ (8 - p.len2 * k % 8))
  rw [toByte_eq_be] at this
  simp only [Spec.positions, List.length_append, List.length_take, length_cutBytes hp.lg hp.kq, hm, hp.plen, hp.e1,
    hp.l2, hp.lg]
  rw [Nat.min_eq_left this, Nat.mul_comm]

theorem cutLow_lt (w k t m : Nat) (hw : 1 ≤ w) : ∀ d ∈ cutLow w k t m, d < w := by
  induction m with
  | zero => simp [cutLow]
  | succ m ih =>
    intro d hd
    simp only [cutLow, List.mem_cons] at hd
    rcases hd with rfl | hd
    · have : (t / 2 ^ (k * m)) &&& (w - 1) ≤ w - 1 := Nat.and_le_right
      omega
    · exact ih d hd

theorem positions_lt {w : Nat} {p : WotsParams} {k q : Nat} (hp : AnyParams w p k q) (msg : Bytes) :
    ∀ d ∈ Spec.positions w msg, d < w := by
  have hb : ∀ (l : Bytes), ∀ d ∈ l.flatMap (Spec.cutByte w), d < w := by
    intro l d hd
    obtain ⟨b, _, hb⟩ := List.mem_flatMap.mp hd
    rw [cutByte_eq hp.lg hp.kq] at hb
    exact cutLow_lt _ _ _ _ hp.wpos d hb
  intro d hd
  rcases List.mem_append.mp hd with h | h
  · exact hb _ d h
  · exact hb _ d (List.mem_of_mem_take h)

theorem wotsPkFromSig_any (S : Sha256) (hf : HashFn) {w : Nat} {p : WotsParams} {k q : Nat}
    (hp : AnyParams w p k q) (sig : List Bytes) (m ps : Bytes) (i b c d : Nat) (hm : m.length = 32) :
    ∃ b' c' d', wotsPkFromSig S hf p sig m ps ⟨0, 0, 0, 0, i, b, c, d⟩ =
      ok (Spec.wotsPkFromSig (hf.prim S) w ps i sig (Spec.positions w m), ⟨0, 0, 0, 0, i, b', c', d'⟩) := by
  have hlt := positions_lt hp m
  obtain ⟨b', c', d', e⟩ := pkFromSigLoop_eq S hf p ps i (sig.zip (Spec.positions w m))
    (by intro y hy; rw [hp.pw]; exact hlt y.2 (List.of_mem_zip hy).2) 0 b c d
  refine ⟨b', c', d', ?_⟩
  rw [wotsPkFromSig, verifyDigits_eq_signDigits, signDigits_any hp m hm, ok_bind, e, hp.pw]
  rfl

theorem xmssVerifysig_any (S : Sha256) (hf : HashFn) {w : Nat} {p : WotsParams} {k q : Nat}
    (hp : AnyParams w p k q) (msg sig pk : Bytes) (h : Nat) (h1 : 1 ≤ h) (h2 : h ≤ 255)
    (hsig : sig.length = 36 + 32 * p.len + 32 * h) (hpk : pk.length = 64) :
    xmssVerifysig S hf p msg sig pk h =
      ok (if Spec.rootFromSigAny (hf.prim S) w h (pk.take 32) (pk.drop 32) msg sig = pk.take 32 then 0 else -1, msg) := by
  have hlen := hp.len_pos
  have hw := hp.small
  have hks : p.keysize = 32 * p.len := by rw [hp.keysize, Nat.mul_comm]
  have e0 : (4 + 32 + p.len * 32 + h * 32) % 2 ^ 32 = 36 + 32 * p.len + 32 * h := by omega
  have e1 : sub64 (36 + 32 * p.len + 32 * h) 36 = 32 * p.len + 32 * h := by rw [sub64_of_le] <;> omega
  have e2 : sub64 (32 * p.len + 32 * h) (32 * p.len) = h * 32 := by rw [sub64_of_le] <;> omega
  have e3 : sub64 (h * 32) (h * 32) = 0 := by rw [sub64_of_le] <;> omega
  have hps : (pk.drop 32).take 32 = pk.drop 32 := List.take_of_length_le (by simp [hpk])
  simp only [xmssVerifysig, e0, slice_eq_ok (show 32 + 32 ≤ pk.length by omega),
    slice_eq_ok (show 0 + 32 ≤ pk.length by omega), be32At_eq (show 4 ≤ sig.length by omega),
    slice_eq_ok (show 4 + 32 ≤ sig.length by omega), ok_bind, hps, List.drop_zero, Adrs.setType, Adrs.setOTS,
    Adrs.setLtree, toByte_eq_be, hMsg_eq, hks, e1, e2, e3,
    sliceChunks_eq sig p.len 36 (by omega)]
  obtain ⟨b', c', d', e4⟩ := wotsPkFromSig_any S hf hp (Spec.chunks sig 36 p.len)
    (Spec.Hmsg (hf.prim S) ((sig.drop 4).take 32 ++ pk.take 32 ++ Spec.be 32 (Spec.byteVal (sig.take 4))) msg)
    (pk.drop 32) (Spec.byteVal (sig.take 4)) 0 0 0 (length_Hmsg ..)
  rw [e4]
  simp only [ok_bind]
  have hdl := length_positions hp (Spec.Hmsg (hf.prim S) ((sig.drop 4).take 32 ++ pk.take 32 ++
    Spec.be 32 (Spec.byteVal (sig.take 4))) msg) (length_Hmsg ..)
  obtain ⟨b2, c2, d2, e5⟩ := lTree_eq S hf p (Spec.wotsPkFromSig (hf.prim S) w (pk.drop 32)
    (Spec.byteVal (sig.take 4)) (Spec.chunks sig 36 p.len)
    (Spec.positions w (Spec.Hmsg (hf.prim S) ((sig.drop 4).take 32 ++ pk.take 32 ++
    Spec.be 32 (Spec.byteVal (sig.take 4))) msg))) (pk.drop 32) (Spec.byteVal (sig.take 4)) 0 0 0 hlen
    (by simp only [Spec.wotsPkFromSig, List.length_map, List.length_zipIdx, List.length_zip, length_chunks, hdl,
      Nat.min_self])
  rw [e5]
  simp only [ok_bind]
  rw [validateAuthpath_eq S hf _ _ _ _ _ _ _ _ _ h1 (by omega)]
  simp only [ok_bind, zeroBack, copyBack, Spec.rootFromSigAny, Spec.digest, hp.len]
  split <;> simp_all

theorem length_signatureAny (S : Sha256) (hf : HashFn) {w : Nat} {p : WotsParams} {k q : Nat}
    (hp : AnyParams w p k q) (h : Nat) (sk skPrf ps : Bytes) (idx : Nat) (msg : Bytes) :
    (Spec.signatureAny (hf.prim S) w h sk skPrf ps idx msg).length = 36 + 32 * p.len + 32 * h := by
  have hlen := hp.len_pos
  rw [Spec.signatureAny]
  simp only [List.length_append, length_be, length_PRF, length_flatten32 _ (mem_wotsSig S hf sk ps idx _),
    length_flatten32 _ (mem_authPath S hf w (Spec.lenW w) sk ps h idx (by rw [hp.len]; omega))]
  simp only [Spec.wotsSig, Spec.authPath, List.length_map, List.length_zipIdx, List.length_range]
  rw [length_positions hp _ (by rw [Spec.digest]; exact length_Hmsg ..)]

theorem rootFromSigAny_signatureAny (S : Sha256) (hf : HashFn) {w : Nat} {p : WotsParams} {k q : Nat}
    (hp : AnyParams w p k q) (h : Nat) (h32 : h ≤ 32) (sk skPrf ps : Bytes) (idx : Nat)
    (hi : idx < 2 ^ h) (msg : Bytes) :
    Spec.rootFromSigAny (hf.prim S) w h (Spec.node (hf.prim S) w (Spec.lenW w) sk ps h 0) ps msg
      (Spec.signatureAny (hf.prim S) w h sk skPrf ps idx msg) =
    Spec.node (hf.prim S) w (Spec.lenW w) sk ps h 0 := by
  have hlen := hp.len_pos
  generalize hroot : Spec.node (hf.prim S) w (Spec.lenW w) sk ps h 0 = root
  generalize hr : Spec.PRF (hf.prim S) skPrf (Spec.be 32 idx) = r
  have hrl : r.length = 32 := by rw [← hr]; exact length_PRF ..
  generalize hds : Spec.positions w (Spec.digest (hf.prim S) r root idx msg) = ds
  have hdl : ds.length = p.len := by
    rw [← hds, length_positions hp _ (by rw [Spec.digest]; exact length_Hmsg ..)]
  have hdlt : ∀ d ∈ ds, d < w := by
    rw [← hds]; exact positions_lt hp _
  generalize hws : Spec.wotsSig (hf.prim S) sk ps idx ds = ws
  have hwsx : ∀ x ∈ ws, x.length = 32 := by rw [← hws]; exact mem_wotsSig S hf sk ps idx ds
  have hwsl : ws.length = Spec.lenW w := by rw [← hws, hp.len]; simp [Spec.wotsSig, hdl]
  generalize hau : Spec.authPath (hf.prim S) w (Spec.lenW w) sk ps h idx = au
  have haux : ∀ x ∈ au, x.length = 32 := by
    rw [← hau]; exact mem_authPath S hf w _ sk ps h idx (by rw [hp.len]; omega)
  have haul : au.length = h := by rw [← hau]; simp [Spec.authPath]
  have hsig : Spec.signatureAny (hf.prim S) w h sk skPrf ps idx msg =
      Spec.be 4 idx ++ r ++ ws.flatten ++ au.flatten := by
    rw [Spec.signatureAny]; simp only [hroot, hr, hds, hws, hau]
  have hb4 := length_be 4 idx
  have h232 : idx < 2 ^ 32 := Nat.lt_of_lt_of_le hi (Nat.pow_le_pow_right (by omega) h32)
  have t1 : (Spec.be 4 idx ++ r ++ ws.flatten ++ au.flatten).take 4 = Spec.be 4 idx := by
    rw [List.append_assoc, List.append_assoc, List.take_append, List.take_of_length_le (by omega),
      hb4, Nat.sub_self, List.take_zero, List.append_nil]
  have t2 : ((Spec.be 4 idx ++ r ++ ws.flatten ++ au.flatten).drop 4).take 32 = r := by
    rw [List.append_assoc, List.append_assoc, List.drop_append, List.drop_eq_nil_of_le (by omega), hb4,
      Nat.sub_self, List.nil_append, List.drop_zero, List.take_append, List.take_of_length_le (by omega), hrl,
      Nat.sub_self, List.take_zero, List.append_nil]
  have t3 : Spec.chunks (Spec.be 4 idx ++ r ++ ws.flatten ++ au.flatten) 36 (Spec.lenW w) = ws := by
    rw [List.append_assoc, ← hwsl]
    exact chunks_flatten _ ws hwsx _ 36 (by simp [hb4, hrl])
  have t4 : Spec.chunks (Spec.be 4 idx ++ r ++ ws.flatten ++ au.flatten) (36 + 32 * Spec.lenW w) h = au := by
    have := chunks_flatten (Spec.be 4 idx ++ r ++ ws.flatten) au haux [] (36 + 32 * Spec.lenW w)
      (by simp only [List.length_append, hb4, hrl, length_flatten32 ws hwsx, hwsl])
    rw [List.append_nil, haul] at this
    exact this
  have t5 : Spec.byteVal (Spec.be 4 idx) = idx := by rw [byteVal_be, Nat.mod_eq_of_lt (by omega)]
  simp only [hsig, Spec.rootFromSigAny, t1, t2, t3, t4, t5, hds]
  rw [← hws, wotsPkFromSig_wotsSig (hf.prim S) w (Spec.lenW w) sk ps idx ds (by rw [hdl, hp.len]) hdlt, ← hau]
  exact (climb_authPath (hf.prim S) w (Spec.lenW w) sk ps h idx hi).trans hroot

theorem wotsSign_any (S : Sha256) (hf : HashFn) {w : Nat} {p : WotsParams} {k q : Nat}
    (hp : AnyParams w p k q) (m sk ps : Bytes) (i b c d : Nat) (hm : m.length = 32) :
    ∃ b' c' d', wotsSign S hf p m (Spec.PRF (hf.prim S) sk (Spec.address 0 i 0 0 0)) ps ⟨0, 0, 0, 0, i, b, c, d⟩ =
      ok (Spec.wotsSig (hf.prim S) sk ps i (Spec.positions w m), ⟨0, 0, 0, 0, i, b', c', d'⟩) := by
  have hlt := positions_lt hp m
  have hlen := length_positions hp m hm
  obtain ⟨b', c', d', e⟩ := wotsSignLoop_eq S hf p ps i
    ((expandSeed S hf (Spec.PRF (hf.prim S) sk (Spec.address 0 i 0 0 0)) p.len).zip (Spec.positions w m))
    (by intro y hy; rw [hp.pw]; exact Nat.le_of_lt (hlt y.2 (List.of_mem_zip hy).2)) 0 b c d
  refine ⟨b', c', d', ?_⟩
  rw [wotsSign, signDigits_any hp m hm, ok_bind, e]
  congr 2
  apply List.ext_getElem
  · simp [Spec.wotsSig, expandSeed_eq, hlen]
  · intro j h1 h2
    simp only [List.getElem_map, List.getElem_zipIdx, List.getElem_zip, Spec.wotsSig, expandSeed_eq,
      List.getElem_range, Nat.zero_add]
    rfl

theorem signatureAny_parts (S : Sha256) (hf : HashFn) (w h : Nat) (K : KeyParts) (idx : Nat) (msg : Bytes)
    (hroot : K.root = Spec.node (hf.prim S) w (Spec.lenW w) K.skSeed K.ps h 0) :
    Spec.signatureAny (hf.prim S) w h K.skSeed K.skPrf K.ps idx msg =
      idxBytes idx ++ Spec.PRF (hf.prim S) K.skPrf (Spec.be 32 idx) ++
        (Spec.wotsSig (hf.prim S) K.skSeed K.ps idx (Spec.positions w (Spec.Hmsg (hf.prim S)
          (Spec.PRF (hf.prim S) K.skPrf (Spec.be 32 idx) ++ K.root ++ Spec.be 32 idx) msg))).flatten ++
        (Spec.authPath (hf.prim S) w (Spec.lenW w) K.skSeed K.ps h idx).flatten := by
  rw [Spec.signatureAny, idxBytes_eq, hroot]; rfl

theorem xmssSignmsg_any (S : Sha256) (hf : HashFn) {w : Nat} {p : XmssParams} {k q : Nat}
    (hp : AnyParams w p.wots k q) (hh : p.h ≤ 25) (K : KeyParts) (idx : Nat)
    (hidx : idx < 2 ^ p.h) (hroot : K.root = Spec.node (hf.prim S) w (Spec.lenW w) K.skSeed K.ps p.h 0)
    (msg : Bytes) :
    xmssSignmsg S hf p (K.sk idx) msg =
      ok (K.sk (idx + 1), Spec.signatureAny (hf.prim S) w p.h K.skSeed K.skPrf K.ps idx msg) := by
  have hlen := hp.len_pos
  have h32 : idx < 2 ^ 32 := Nat.lt_of_lt_of_le hidx (Nat.pow_le_pow_right (by omega) (by omega))
  simp only [xmssSignmsg, K.idx idx h32, K.seed_slice, K.prf_slice, K.ps_slice, ok_bind, K.reindex, K.root_slice,
    prf_eq, toByte_eq_be, hMsg_eq, Adrs.setType, Adrs.setOTS, getSeed_eq]
  obtain ⟨b', c', d', e⟩ := wotsSign_any S hf hp (Spec.Hmsg (hf.prim S)
          (Spec.PRF (hf.prim S) K.skPrf (Spec.be 32 idx) ++ K.root ++ Spec.be 32 idx) msg) K.skSeed K.ps idx 0 0 0
    (length_Hmsg ..)
  rw [e]
  simp only [ok_bind]
  rw [computeAuthpathWots_eq S hf p K.skSeed K.ps hlen hh idx hidx]
  simp only [ok_bind]
  rw [signatureAny_parts S hf w p.h K idx msg hroot, hp.len, hp.pw]

theorem lenW_pos_any {w : Nat} (hw : Spec.UsableW w) : 1 ≤ Spec.lenW w := by
  obtain ⟨p, k, q, hp⟩ := anyParams hw
  rw [hp.len]; exact hp.len_pos

theorem basicNew_any (S : Sha256) (seed : Bytes) (height : UInt8) (hf : HashFn) (af w : Nat)
    (hw : Spec.UsableW w) (hs : seed.length = 48) (hh : GoodHeight height) :
    ∃ p k q, AnyParams w p k q ∧ XmssBasic.new S seed height hf.toNat af w =
      ok { params := ⟨p, height.toNat⟩, hashFunction := hf.toNat, addrFormat := af, height := height,
           sk := (keyOf S hf w height.toNat (lenW_pos_any hw) seed).sk 0, seed := seed } := by
  obtain ⟨p, k, q, hp⟩ := anyParams hw
  refine ⟨p, k, q, hp, ?_⟩
  obtain ⟨h4, h30, he⟩ := hh
  have hc : ¬ (2 ≥ height.toNat ∨ (height.toNat - 2) % 2 ≠ 0) := by omega
  have hgen : xmssGenkeypair S hf ⟨p, height.toNat⟩ seed = ok ((keyOf S hf w height.toNat (lenW_pos_any hw) seed).sk 0) := by
    have h48 : (seed.drop 0).take 48 = seed := by simp [← hs]
    rw [xmssGenkeypair, slice_eq_ok (by omega), ok_bind, h48]
    simp only
    rw [treehash_eq S hf ⟨p, height.toNat⟩ _ _ hp.len_pos height.toNat (by omega) 0 0 0 0 0, ok_bind]
    simp only
    rw [hp.pw, ← hp.len, keyOf_sk0 S hf w height.toNat (lenW_pos_any hw)]
  simp only [XmssBasic.new, baseCtorCheck, hs, ne_eq, not_true, if_false, show ¬ height.toNat > 254 by omega, ok_bind]
  rw [if_neg hc, xmssSetParams, if_neg hc, hp.set, ok_bind, ok_bind, withHash, ofNat?_toNat]
  simp only
  rw [hgen]
  rfl

theorem base_any {w : Nat} {p : WotsParams} {k q : Nat} (hp : AnyParams w p k q) :
    calculateSignatureBaseSize w = ok (4 + 32 + 32 * p.len) := by
  have hk : p.keysize = 32 * p.len := by rw [hp.keysize, Nat.mul_comm]
  simp [calculateSignatureBaseSize, hp.set, hk]

theorem basicSign_any (S : Sha256) (hf : HashFn) {w : Nat} {p : WotsParams}
    {k q : Nat} (hp : AnyParams w p k q) (o : XmssBase) (hop : o.params = ⟨p, o.height.toNat⟩)
    (hof : o.hashFunction = hf.toNat) (hh : o.height.toNat ≤ 25) (K : KeyParts)
    (hroot : K.root = Spec.node (hf.prim S) w (Spec.lenW w) K.skSeed K.ps o.height.toNat 0)
    (idx : Nat) (hidx : idx < 2 ^ o.height.toNat) (hsk : o.sk = K.sk idx) (msg : Bytes) :
    XmssBasic.sign S o msg =
      ok (Spec.signatureAny (hf.prim S) w o.height.toNat K.skSeed K.skPrf K.ps idx msg,
        { o with sk := K.sk (idx + 1) }) := by
  have hpw : o.params.wots.w = w := by rw [hop]; exact hp.pw
  have hsm := hp.small
  have hsz : o.getSignatureSize w = ok (36 + 32 * p.len + 32 * o.height.toNat) := by
    rw [XmssBase.getSignatureSize, base_any hp, ok_bind, Nat.mod_eq_of_lt (by omega)]
    congr 1; omega
  rw [XmssBasic.sign, hpw, hsz, ok_bind, hof, withHash, ofNat?_toNat]
  simp only
  rw [hsk, hop, xmssSignmsg_any S hf (p := ⟨p, o.height.toNat⟩) hp hh K idx hidx hroot msg]
  simp only [ok_bind]
  rw [fillBuffer_exact]
  · rfl
  · rw [length_signatureAny S hf hp]

end Qrl
