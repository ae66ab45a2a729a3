import Verif.Proof.SpecDigits
import Verif.Proof.BasicTree

namespace Qrl

open Outcome

theorem slice_eq_ok {l : Bytes} {off len : Nat} (h : off + len ≤ l.length) :
    slice l off len = ok ((l.drop off).take len) := by simp [slice, h]

theorem or4_eq (a b c d : Nat) (hb : b < 256) (hc : c < 256) (hd : d < 256) :
    (a <<< 24) ||| (b <<< 16) ||| (c <<< 8) ||| d = ((a * 256 + b) * 256 + c) * 256 + d := by
  have e1 : (a <<< 24) ||| (b <<< 16) = (a * 256 + b) <<< 16 := by
    have : b <<< 16 < 2 ^ 24 := by rw [Nat.shiftLeft_eq]; omega
    rw [← Nat.shiftLeft_add_eq_or_of_lt this]
    simp only [Nat.shiftLeft_eq]; omega
  have e2 : ((a * 256 + b) <<< 16) ||| (c <<< 8) = ((a * 256 + b) * 256 + c) <<< 8 := by
    have : c <<< 8 < 2 ^ 16 := by rw [Nat.shiftLeft_eq]; omega
    rw [← Nat.shiftLeft_add_eq_or_of_lt this]
    simp only [Nat.shiftLeft_eq]; omega
  have e3 : (((a * 256 + b) * 256 + c) <<< 8) ||| d = ((a * 256 + b) * 256 + c) * 256 + d := by
    have : d < 2 ^ 8 := by omega
    rw [← Nat.shiftLeft_add_eq_or_of_lt this]
    simp only [Nat.shiftLeft_eq]
  rw [e1, e2, e3]

theorem be32At_eq {l : Bytes} (h : 4 ≤ l.length) : be32At l = ok (Spec.byteVal (l.take 4)) := by
  match l, h with
  | a :: b :: c :: d :: rest, _ =>
    have hb := b.toNat_lt; have hc := c.toNat_lt; have hd := d.toNat_lt
    simp only [be32At, rd, List.getElem?_cons_zero, List.getElem?_cons_succ, ofOption_some, ok_bind,
      or4_eq a.toNat b.toNat c.toNat d.toNat (by omega) (by omega) (by omega)]
    simp [Spec.byteVal]

theorem chunks_succ (sig : Bytes) (off k : Nat) :
    Spec.chunks sig off (k + 1) = (sig.drop off).take 32 :: Spec.chunks sig (off + 32) k := by
  rw [Spec.chunks, List.range_succ_eq_map, List.map_cons, List.map_map, Spec.chunks]
  congr 1
  apply List.map_congr_left
  intro j _
  simp only [Function.comp]
  rw [show off + 32 * (j + 1) = off + 32 + 32 * j by omega]

theorem sliceChunks_eq (sig : Bytes) (k : Nat) : ∀ off, off + 32 * k ≤ sig.length →
    sliceChunks sig off k = ok (Spec.chunks sig off k) := by
  induction k with
  | zero => intro off _; rfl
  | succ k ih =>
    intro off h
    rw [sliceChunks, slice_eq_ok (by omega), ok_bind, ih (off + 32) (by omega), ok_bind, chunks_succ]

@[simp] theorem length_chunks (sig : Bytes) (off k : Nat) : (Spec.chunks sig off k).length = k := by
  simp [Spec.chunks]

theorem mem_chunks (sig : Bytes) (off k : Nat) (h : off + 32 * k ≤ sig.length) :
    ∀ x ∈ Spec.chunks sig off k, x.length = 32 := by
  intro x hx
  simp only [Spec.chunks, List.mem_map, List.mem_range] at hx
  obtain ⟨j, hj, rfl⟩ := hx
  simp; omega

/-- The two children in tree order. -/
def arr (i : Nat) (x a : Bytes) : Bytes × Bytes := if i % 2 = 1 then (a, x) else (x, a)

theorem climb_arr (G : Bytes → Bytes) (ps : Bytes) (l i : Nat) (x a : Bytes) (path : List Bytes) :
    Spec.climb G ps l i x (a :: path) =
      Spec.climb G ps (l + 1) (i / 2) (Spec.H G ps 2 0 l (i / 2) (arr i x a).1 (arr i x a).2) path := by
  rw [Spec.climb, arr]
  rcases Nat.mod_two_eq_zero_or_one i with h | h <;> simp [h]

theorem authPathLoop_eq (S : Sha256) (hf : HashFn) (ps sig : Bytes) (m : Nat) :
    ∀ (i L off : Nat) (x a : Bytes) (b c d : Nat), off + 32 * m ≤ sig.length →
      ∃ L' bl br b' c' d',
        authPathLoop S hf ps sig m i L off (arr L x a).1 (arr L x a).2 ⟨0, 0, 0, 2, 0, b, c, d⟩ =
          ok (L', bl, br, ⟨0, 0, 0, 2, 0, b', c', d'⟩) ∧
        Spec.H (hf.prim S) ps 2 0 (i + m) (L' / 2) bl br =
          Spec.climb (hf.prim S) ps i L x (a :: Spec.chunks sig off m) := by
  induction m with
  | zero =>
    intro i L off x a b c d _
    exact ⟨L, _, _, b, c, d, rfl, by rw [climb_arr]; rfl⟩
  | succ m ih =>
    intro i L off x a b c d h
    have hs : L >>> 1 = L / 2 := Nat.shiftRight_eq_div_pow L 1
    simp only [authPathLoop, Adrs.setTreeHeight, Adrs.setTreeIndex, hashH_eq, hs, slice_eq_ok (show off + 32 ≤ sig.length by omega),
      ok_bind, Nat.and_one_is_mod]
    generalize hy : Spec.H (hf.prim S) ps 2 0 i (L / 2) (arr L x a).1 (arr L x a).2 = y
    have key := ih (i + 1) (L / 2) (off + 32) y ((sig.drop off).take 32) i (L / 2) 2 (by omega)
    obtain ⟨L', bl, br, b', c', d', e1, e2⟩ := key
    refine ⟨L', bl, br, b', c', d', ?_, ?_⟩
    · rw [← e1, arr]
      rcases Nat.mod_two_eq_zero_or_one (L / 2) with h | h <;> simp [h]
    · rw [show i + (m + 1) = i + 1 + m by omega, e2, climb_arr _ _ i, hy, chunks_succ]

theorem validateAuthpath_eq (S : Sha256) (hf : HashFn) (leaf : Bytes) (idx : Nat) (sig : Bytes) (off h : Nat)
    (ps : Bytes) (b c d : Nat) (h1 : 1 ≤ h) (hl : off + 32 * h ≤ sig.length) :
    validateAuthpath S hf leaf idx sig off h ps ⟨0, 0, 0, 2, 0, b, c, d⟩ =
      ok (Spec.climb (hf.prim S) ps 0 idx leaf (Spec.chunks sig off h)) := by
  obtain ⟨m, rfl⟩ : ∃ m, h = m + 1 := ⟨h - 1, by omega⟩
  simp only [validateAuthpath, slice_eq_ok (show off + 32 ≤ sig.length by omega), ok_bind, Nat.and_one_is_mod,
    Nat.add_sub_cancel]
  obtain ⟨L', bl, br, b', c', d', e1, e2⟩ := authPathLoop_eq S hf ps sig m 0 idx (off + 32) leaf
    ((sig.drop off).take 32) b c d (by omega)
  have ha : (if idx % 2 = 1 then ((sig.drop off).take 32, leaf) else (leaf, (sig.drop off).take 32)) =
      arr idx leaf ((sig.drop off).take 32) := rfl
  rw [ha, e1]
  have hs : L' >>> 1 = L' / 2 := Nat.shiftRight_eq_div_pow L' 1
  simp only [ok_bind, Adrs.setTreeHeight, Adrs.setTreeIndex, hashH_eq, hs]
  rw [chunks_succ, ← e2, Nat.zero_add]

theorem wotsPkFromSig_spec (S : Sha256) (hf : HashFn) {w : Nat} {p : WotsParams} {k q : Nat}
    (hp : SpecParams w p k q) (sig : List Bytes) (m ps : Bytes) (i b c d : Nat) (hm : m.length = 32) :
    ∃ b' c' d', wotsPkFromSig S hf p sig m ps ⟨0, 0, 0, 0, i, b, c, d⟩ =
      ok (Spec.wotsPkFromSig (hf.prim S) w ps i sig (Spec.wotsDigits w m), ⟨0, 0, 0, 0, i, b', c', d'⟩) := by
  have hlt := wotsDigits_lt hp m hm
  obtain ⟨b', c', d', e⟩ := pkFromSigLoop_eq S hf p ps i (sig.zip (Spec.wotsDigits w m))
    (by intro y hy; rw [hp.pw]; exact hlt y.2 (List.of_mem_zip hy).2) 0 b c d
  refine ⟨b', c', d', ?_⟩
  rw [wotsPkFromSig, verifyDigits_eq_signDigits, signDigits_spec hp m hm, ok_bind, e, hp.pw]
  rfl

theorem sub64_of_le {a b : Nat} (h : b ≤ a) (ha : a < 2 ^ 64) : sub64 a b = a - b := by
  rw [sub64]; omega

/-- `xmss_Verifysig` on a signature and key of the right sizes: it compares the recomputed root, reads in
range only and leaves the message as it is. -/
theorem xmssVerifysig_eq (S : Sha256) (hf : HashFn) {w : Nat} {p : WotsParams} {k q : Nat}
    (hp : SpecParams w p k q) (hw : p.len ≤ 2 ^ 20) (msg sig pk : Bytes) (h : Nat) (h1 : 1 ≤ h) (h2 : h ≤ 255)
    (hsig : sig.length = 36 + 32 * p.len + 32 * h) (hpk : pk.length = 64) (hlen : 1 ≤ p.len) :
    xmssVerifysig S hf p msg sig pk h =
      ok (if Spec.rootFromSig (hf.prim S) w h (pk.take 32) (pk.drop 32) msg sig = pk.take 32 then 0 else -1, msg) := by
  have hks : p.keysize = 32 * p.len := by rw [hp.good.keysize, Nat.mul_comm]
  have e0 : (4 + 32 + p.len * 32 + h * 32) % 2 ^ 32 = 36 + 32 * p.len + 32 * h := by omega
  have e1 : sub64 (36 + 32 * p.len + 32 * h) 36 = 32 * p.len + 32 * h := by rw [sub64_of_le] <;> omega
  have e2 : sub64 (32 * p.len + 32 * h) (32 * p.len) = h * 32 := by rw [sub64_of_le] <;> omega
  have e3 : sub64 (h * 32) (h * 32) = 0 := by rw [sub64_of_le] <;> omega
  have hps : (pk.drop 32).take 32 = pk.drop 32 := List.take_of_length_le (by simp [hpk])
  simp only [xmssVerifysig, e0, slice_eq_ok (show 32 + 32 ≤ pk.length by omega),
    slice_eq_ok (show 0 + 32 ≤ pk.length by omega), be32At_eq (show 4 ≤ sig.length by omega),
    slice_eq_ok (show 4 + 32 ≤ sig.length by omega), ok_bind, hps, List.drop_zero, Adrs.setType, Adrs.setOTS,
    Adrs.setLtree, toByte_eq_be, hMsg_eq, hks, e1, e2, e3,
    sliceChunks_eq sig p.len 36 (by omega)]
  obtain ⟨b', c', d', e4⟩ := wotsPkFromSig_spec S hf hp (Spec.chunks sig 36 p.len)
    (Spec.Hmsg (hf.prim S) ((sig.drop 4).take 32 ++ pk.take 32 ++ Spec.be 32 (Spec.byteVal (sig.take 4))) msg)
    (pk.drop 32) (Spec.byteVal (sig.take 4)) 0 0 0 (length_Hmsg ..)
  rw [e4]
  simp only [ok_bind]
  have hdl := length_wotsDigits hp (Spec.Hmsg (hf.prim S) ((sig.drop 4).take 32 ++ pk.take 32 ++
    Spec.be 32 (Spec.byteVal (sig.take 4))) msg) (length_Hmsg ..)
  obtain ⟨b2, c2, d2, e5⟩ := lTree_eq S hf p (Spec.wotsPkFromSig (hf.prim S) w (pk.drop 32)
    (Spec.byteVal (sig.take 4)) (Spec.chunks sig 36 p.len)
    (Spec.wotsDigits w (Spec.Hmsg (hf.prim S) ((sig.drop 4).take 32 ++ pk.take 32 ++
    Spec.be 32 (Spec.byteVal (sig.take 4))) msg))) (pk.drop 32) (Spec.byteVal (sig.take 4)) 0 0 0 hlen
    (by simp only [Spec.wotsPkFromSig, List.length_map, List.length_zipIdx, List.length_zip, length_chunks, hdl,
      Nat.min_self])
  rw [e5]
  simp only [ok_bind]
  rw [validateAuthpath_eq S hf _ _ _ _ _ _ _ _ _ h1 (by omega)]
  simp only [ok_bind, zeroBack, copyBack, Spec.rootFromSig, Spec.digest, hp.len]
  split <;> simp_all

/-! ### Honest signatures -/

theorem climb_node (G : Bytes → Bytes) (w len : Nat) (sk ps : Bytes) (idx : Nat) (m : Nat) : ∀ l,
    Spec.climb G ps l (idx / 2 ^ l) (Spec.node G w len sk ps l (idx / 2 ^ l))
      ((List.range' l m).map fun l' => Spec.node G w len sk ps l' (Spec.sibling (idx / 2 ^ l'))) =
      Spec.node G w len sk ps (l + m) (idx / 2 ^ (l + m)) := by
  induction m with
  | zero => intro l; rfl
  | succ m ih =>
    intro l
    have e : idx / 2 ^ l / 2 = idx / 2 ^ (l + 1) := by rw [Nat.div_div_eq_div_mul, Nat.pow_succ]
    rw [List.range'_succ, List.map_cons, Spec.climb, Spec.sibling]
    have hn : (if idx / 2 ^ l % 2 = 0 then
        Spec.H G ps 2 0 l (idx / 2 ^ l / 2) (Spec.node G w len sk ps l (idx / 2 ^ l))
          (Spec.node G w len sk ps l (if idx / 2 ^ l % 2 = 0 then idx / 2 ^ l + 1 else idx / 2 ^ l - 1))
      else
        Spec.H G ps 2 0 l (idx / 2 ^ l / 2)
          (Spec.node G w len sk ps l (if idx / 2 ^ l % 2 = 0 then idx / 2 ^ l + 1 else idx / 2 ^ l - 1))
          (Spec.node G w len sk ps l (idx / 2 ^ l))) =
        Spec.node G w len sk ps (l + 1) (idx / 2 ^ (l + 1)) := by
      rw [← e, Spec.node]
      generalize idx / 2 ^ l = n
      rcases Nat.mod_two_eq_zero_or_one n with h | h
      · rw [if_pos h, if_pos h, show 2 * (n / 2) = n by omega]
      · rw [if_neg (by omega), if_neg (by omega), show 2 * (n / 2) = n - 1 by omega, show n - 1 + 1 = n by omega]
    rw [hn, e, ih (l + 1), show l + 1 + m = l + (m + 1) by omega]

theorem climb_authPath (G : Bytes → Bytes) (w len : Nat) (sk ps : Bytes) (h idx : Nat) (hi : idx < 2 ^ h) :
    Spec.climb G ps 0 idx (Spec.leaf G w len sk ps idx) (Spec.authPath G w len sk ps h idx) =
      Spec.node G w len sk ps h 0 := by
  have := climb_node G w len sk ps idx h 0
  rw [← List.range_eq_range', Nat.zero_add, Nat.pow_zero, Nat.div_one, Nat.div_eq_of_lt hi] at this
  exact this

theorem wotsPkFromSig_wotsSig (G : Bytes → Bytes) (w len : Nat) (sk ps : Bytes) (i : Nat) (ds : List Nat)
    (hl : ds.length = len) (hd : ∀ d ∈ ds, d < w) :
    Spec.wotsPkFromSig G w ps i (Spec.wotsSig G sk ps i ds) ds = Spec.wotsPk G w len sk ps i := by
  apply List.ext_getElem
  · simp [Spec.wotsPkFromSig, Spec.wotsSig, Spec.wotsPk, hl]
  · intro j h1 h2
    simp only [Spec.wotsPkFromSig, Spec.wotsSig, Spec.wotsPk, List.getElem_map, List.getElem_zipIdx,
      List.getElem_zip, List.getElem_range, Nat.zero_add]
    have hj : j < ds.length := by simpa [Spec.wotsPk, hl] using h2
    have := hd ds[j] (List.getElem_mem hj)
    have hc := chain_add G ps i j ds[j] (w - 1 - ds[j]) 0 (Spec.wotsSecret G sk i j)
    rw [Nat.zero_add, show ds[j] + (w - 1 - ds[j]) = w - 1 by omega] at hc
    exact hc

theorem drop_flatten (l : List Bytes) (hx : ∀ x ∈ l, x.length = 32) (rest : Bytes) : ∀ j, j < l.length →
    ((l.flatten ++ rest).drop (32 * j)).take 32 = l.getD j [] := by
  induction l with
  | nil => intro j h; simp at h
  | cons a l ih =>
    intro j hj
    have ha := hx a (by simp)
    cases j with
    | zero => simp [← ha]
    | succ j =>
      have := ih (fun x h => hx x (by simp [h])) j (by simpa using hj)
      rw [List.flatten_cons, List.append_assoc, show 32 * (j + 1) = a.length + 32 * j by omega, List.drop_append,
        List.drop_eq_nil_of_le (by omega), List.nil_append, show a.length + 32 * j - a.length = 32 * j by omega,
        this, List.getD_cons_succ]

theorem length_flatten32 (l : List Bytes) (hx : ∀ x ∈ l, x.length = 32) : l.flatten.length = 32 * l.length := by
  induction l with
  | nil => rfl
  | cons a l ih =>
    have := ih fun x h => hx x (by simp [h])
    have ha := hx a (by simp)
    simp only [List.flatten_cons, List.length_append, List.length_cons, this]; omega

theorem chunks_flatten (pre : Bytes) (l : List Bytes) (hx : ∀ x ∈ l, x.length = 32) (rest : Bytes) (off : Nat)
    (ho : pre.length = off) : Spec.chunks (pre ++ (l.flatten ++ rest)) off l.length = l := by
  apply List.ext_getElem
  · simp
  · intro j h1 h2
    simp only [Spec.chunks, List.getElem_map, List.getElem_range]
    rw [← ho, List.drop_append, List.drop_eq_nil_of_le (by omega), List.nil_append,
      show pre.length + 32 * j - pre.length = 32 * j by omega, drop_flatten l hx rest j h2]
    simp [h2]

theorem byteVal_be (k v : Nat) : Spec.byteVal (Spec.be k v) = v % 256 ^ k := by
  rw [byteVal_eq, ← toByte_eq_be, byteValue_toByte]

theorem length_be (k v : Nat) : (Spec.be k v).length = k := by simp [Spec.be]

theorem mem_wotsSig (S : Sha256) (hf : HashFn) (sk ps : Bytes) (i : Nat) (ds : List Nat) :
    ∀ x ∈ Spec.wotsSig (hf.prim S) sk ps i ds, x.length = 32 := by
  intro x hx
  obtain ⟨⟨d, ch⟩, _, rfl⟩ := List.mem_map.mp hx
  exact length_chain _ _ _ _ _ _ _ _ (length_wotsSecret ..)

theorem mem_authPath (S : Sha256) (hf : HashFn) (w len : Nat) (sk ps : Bytes) (h i : Nat) (hl : 1 ≤ len) :
    ∀ x ∈ Spec.authPath (hf.prim S) w len sk ps h i, x.length = 32 := by
  intro x hx
  obtain ⟨l, _, rfl⟩ := List.mem_map.mp hx
  exact length_node S hf w len sk ps hl l _

theorem length_signature (S : Sha256) (hf : HashFn) {w : Nat} {p : WotsParams} {k q : Nat}
    (hp : SpecParams w p k q) (hlen : 1 ≤ p.len) (h : Nat) (sk skPrf ps : Bytes) (idx : Nat) (msg : Bytes) :
    (Spec.signature (hf.prim S) w h sk skPrf ps idx msg).length = 36 + 32 * p.len + 32 * h := by
  rw [Spec.signature]
  simp only [List.length_append, length_be, length_PRF, length_flatten32 _ (mem_wotsSig S hf sk ps idx _),
    length_flatten32 _ (mem_authPath S hf w (Spec.lenW w) sk ps h idx (by rw [hp.len]; omega))]
  simp only [Spec.wotsSig, Spec.authPath, List.length_map, List.length_zipIdx, List.length_range]
  rw [length_wotsDigits hp _ (by rw [Spec.digest]; exact length_Hmsg ..)]

/-- The root recomputed from an honest signature. -/
theorem rootFromSig_signature (S : Sha256) (hf : HashFn) {w : Nat} {p : WotsParams} {k q : Nat}
    (hp : SpecParams w p k q) (hlen : 1 ≤ p.len) (h : Nat) (h32 : h ≤ 32) (sk skPrf ps : Bytes) (idx : Nat)
    (hi : idx < 2 ^ h) (msg : Bytes) :
    Spec.rootFromSig (hf.prim S) w h (Spec.node (hf.prim S) w (Spec.lenW w) sk ps h 0) ps msg
      (Spec.signature (hf.prim S) w h sk skPrf ps idx msg) =
    Spec.node (hf.prim S) w (Spec.lenW w) sk ps h 0 := by
  generalize hroot : Spec.node (hf.prim S) w (Spec.lenW w) sk ps h 0 = root
  generalize hr : Spec.PRF (hf.prim S) skPrf (Spec.be 32 idx) = r
  have hrl : r.length = 32 := by rw [← hr]; exact length_PRF ..
  generalize hds : Spec.wotsDigits w (Spec.digest (hf.prim S) r root idx msg) = ds
  have hdl : ds.length = p.len := by
    rw [← hds, length_wotsDigits hp _ (by rw [Spec.digest]; exact length_Hmsg ..)]
  have hdlt : ∀ d ∈ ds, d < w := by
    rw [← hds]; exact wotsDigits_lt hp _ (by rw [Spec.digest]; exact length_Hmsg ..)
  generalize hws : Spec.wotsSig (hf.prim S) sk ps idx ds = ws
  have hwsx : ∀ x ∈ ws, x.length = 32 := by rw [← hws]; exact mem_wotsSig S hf sk ps idx ds
  have hwsl : ws.length = Spec.lenW w := by rw [← hws, hp.len]; simp [Spec.wotsSig, hdl]
  generalize hau : Spec.authPath (hf.prim S) w (Spec.lenW w) sk ps h idx = au
  have haux : ∀ x ∈ au, x.length = 32 := by
    rw [← hau]; exact mem_authPath S hf w _ sk ps h idx (by rw [hp.len]; omega)
  have haul : au.length = h := by rw [← hau]; simp [Spec.authPath]
  have hsig : Spec.signature (hf.prim S) w h sk skPrf ps idx msg =
      Spec.be 4 idx ++ r ++ ws.flatten ++ au.flatten := by
    rw [Spec.signature]; simp only [hroot, hr, hds, hws, hau]
  have hb4 := length_be 4 idx
  have h232 : idx < 2 ^ 32 := Nat.lt_of_lt_of_le hi (Nat.pow_le_pow_right (by omega) h32)
  have t1 : (Spec.be 4 idx ++ r ++ ws.flatten ++ au.flatten).take 4 = Spec.be 4 idx := by
    rw [List.append_assoc, List.append_assoc, List.take_append, List.take_of_length_le (by omega),
      hb4, Nat.sub_self, List.take_zero, List.append_nil]
  have t2 : ((Spec.be 4 idx ++ r ++ ws.flatten ++ au.flatten).drop 4).take 32 = r := by
    rw [List.append_assoc, List.append_assoc, List.drop_append, List.drop_eq_nil_of_le (by omega), hb4,
      Nat.sub_self, List.nil_append, List.drop_zero, List.take_append, List.take_of_length_le (by omega), hrl,
      Nat.sub_self, List.take_zero, List.append_nil]
  have t3 : Spec.chunks (Spec.be 4 idx ++ r ++ ws.flatten ++ au.flatten) 36 (Spec.lenW w) = ws := by
    rw [List.append_assoc, ← hwsl]
    exact chunks_flatten _ ws hwsx _ 36 (by simp [hb4, hrl])
  have t4 : Spec.chunks (Spec.be 4 idx ++ r ++ ws.flatten ++ au.flatten) (36 + 32 * Spec.lenW w) h = au := by
    have := chunks_flatten (Spec.be 4 idx ++ r ++ ws.flatten) au haux [] (36 + 32 * Spec.lenW w)
      (by simp only [List.length_append, hb4, hrl, length_flatten32 ws hwsx, hwsl])
    rw [List.append_nil, haul] at this
    exact this
  have t5 : Spec.byteVal (Spec.be 4 idx) = idx := by rw [byteVal_be, Nat.mod_eq_of_lt (by omega)]
  simp only [hsig, Spec.rootFromSig, t1, t2, t3, t4, t5, hds]
  rw [← hws, wotsPkFromSig_wotsSig (hf.prim S) w (Spec.lenW w) sk ps idx ds (by rw [hdl, hp.len]) hdlt, ← hau]
  exact (climb_authPath (hf.prim S) w (Spec.lenW w) sk ps h idx hi).trans hroot

end Qrl
