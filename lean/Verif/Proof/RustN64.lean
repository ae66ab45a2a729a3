import Verif.Proof.RustKeyN32
/-!
# The Rust hash functions for SHAKE and `n = 64`
-/

namespace Qrl.Rs

open Res

variable (S : Sha256)

/-- From `rate` bytes on, the sponge of the crate only sees the first `rate` bytes of its input and its length. -/
theorem rustAbsorbed_same (rate : Nat) {m m' : Bytes} (hl : m.length = m'.length) (hr : rate ≤ m.length) (h : m.take rate = m'.take rate) :
    Spec.rustAbsorbed rate m = Spec.rustAbsorbed rate m' := by
  rw [Spec.rustAbsorbed, Spec.rustAbsorbed, ← hl, if_neg (Nat.not_lt.mpr hr), if_neg (Nat.not_lt.mpr hr), h]
  by_cases h2 : m.length < 2 * rate
  · rw [if_pos h2, if_pos h2]
    have e : ∀ x : Bytes, x.take (m.length - rate) = (x.take rate).take (m.length - rate) := by
      intro x; rw [List.take_take, Nat.min_eq_left (by omega)]
    rw [e m, e m', h]
  · rw [if_neg h2, if_neg h2]

/-- The bytes of the input of `core_hash` that count, for a key of 64 bytes. -/
def room64 : HashFn → Nat
  | .shake_128 => 40
  | _ => 8

theorem slice_zero {l : Bytes} {k : Nat} : slice l 0 k = if k ≤ l.length then ok (l.take k) else panic := by
  rw [slice]
  simp only [Nat.zero_add, List.drop_zero]

theorem length_toByte64 (t : Nat) : (toByte t 64).length = 64 := by rw [toByte_rs, toByte_eq_be, length_be]

theorem coreHashN_64_same (hf : HashFn) (hs : hf ≠ .sha2_256) (t : Nat) (key inp inp' : Bytes) (il : Nat) (old : Bytes)
    (hl : inp.length = inp'.length) (hil : room64 hf ≤ il) (h : inp.take (room64 hf) = inp'.take (room64 hf)) :
    coreHashN S hf 64 t key 64 inp il old = coreHashN S hf 64 t key 64 inp' il old := by
  rw [coreHashN, coreHashN]
  by_cases hc : il + 64 + 64 ≥ 2 ^ 32
  · rw [if_pos hc, if_pos hc]
  rw [if_neg hc, if_neg hc, toByteN, if_neg (by decide), ok_bind, ok_bind]
  rw [slice_zero, slice_zero, slice_zero, ← hl]
  by_cases hk : 64 ≤ key.length
  · rw [if_pos hk, ok_bind, ok_bind]
    by_cases hi : il ≤ inp.length
    · rw [if_pos hi, if_pos hi, ok_bind, ok_bind]
      have htk : (toByte t 64 ++ key.take 64).length = 128 := by
        rw [List.length_append, length_toByte64, List.length_take]; omega
      have L : ∀ x : Bytes, x.length = inp.length → (toByte t 64 ++ key.take 64 ++ x.take il).length = il + 64 + 64 := by
        intro x hx; rw [List.length_append, htk, List.length_take]; omega
      have T : ∀ r, r ≤ il → inp.take r = inp'.take r →
          (toByte t 64 ++ key.take 64 ++ inp.take il).take (128 + r) = (toByte t 64 ++ key.take 64 ++ inp'.take il).take (128 + r) := by
        intro r hr hh
        rw [← htk, List.take_length_add_append, List.take_length_add_append, List.take_take, List.take_take, Nat.min_eq_left hr, hh]
      have l1 := L inp rfl
      have l2 := L inp' hl.symm
      cases hf with
      | sha2_256 => exact absurd rfl hs
      | shake_128 =>
        dsimp only [room64] at hil h
        simp only [or_true, if_true]
        have := rustAbsorbed_same 168 (l1.trans l2.symm) (by omega) (T 40 hil h)
        have e1 := fipsShake128_eq 64 (toByte t 64 ++ key.take 64 ++ inp.take il)
        have e2 := fipsShake128_eq 64 (toByte t 64 ++ key.take 64 ++ inp'.take il)
        rw [l1] at e1
        rw [l2, ← this, ← e1] at e2
        rw [e2]
      | shake_256 =>
        dsimp only [room64] at hil h
        simp only [or_true, if_true]
        have := rustAbsorbed_same 136 (l1.trans l2.symm) (by omega) (T 8 hil h)
        have e1 := fipsShake256_eq 64 (toByte t 64 ++ key.take 64 ++ inp.take il)
        have e2 := fipsShake256_eq 64 (toByte t 64 ++ key.take 64 ++ inp'.take il)
        rw [l1] at e1
        rw [l2, ← this, ← e1] at e2
        rw [e2]
    · rw [if_neg hi, if_neg hi, panic_bind]
  · rw [if_neg hk, panic_bind, panic_bind]

theorem xor_take {a a' m : Bytes} {k : Nat} (h : a.take k = a'.take k) : (xorBytes a m).take k = (xorBytes a' m).take k := by
  rw [xorBytes, xorBytes, List.take_zipWith, List.take_zipWith, h]

theorem hashFN_64_same (hf : HashFn) (hs : hf ≠ .sha2_256) (x x' ps : Bytes) (a : Adrs) (old : Bytes) (hx : x.length = 64) (hx' : x'.length = 64)
    (h : x.take (room64 hf) = x'.take (room64 hf)) : hashFN S hf 64 x ps a old = hashFN S hf 64 x' ps a old := by
  rw [hashFN, hashFN]
  dsimp only
  have hr : room64 hf ≤ 64 := by cases hf <;> decide
  rw [slice_zero, slice_zero, if_pos (by omega), if_pos (by omega), List.take_of_length_le (l := x) (by omega),
    List.take_of_length_le (l := x') (by omega)]
  cases prfN S hf 64 (adrsBytes (setKeyAndMask a 0)) ps (List.replicate 64 0) with
  | err e => rw [err_bind, err_bind]
  | panic => rw [panic_bind, panic_bind]
  | ok k =>
  rw [ok_bind, ok_bind]
  cases prfN S hf 64 (adrsBytes (setKeyAndMask (setKeyAndMask a 0) 1)) ps (List.replicate 64 0) with
  | err e => rw [err_bind, err_bind]
  | panic => rw [panic_bind, panic_bind]
  | ok m =>
  rw [ok_bind, ok_bind]
  rw [ok_bind, ok_bind, coreHashN_64_same S hf hs 0 k.2 (xorBytes x m.2) (xorBytes x' m.2) 64 old
    (by rw [xorBytes, xorBytes, List.length_zipWith, List.length_zipWith, hx, hx']) hr (xor_take h)]

theorem hashHN_64_same (hf : HashFn) (hs : hf ≠ .sha2_256) (x x' ps : Bytes) (a : Adrs) (old : Bytes) (hx : x.length = 128) (hx' : x'.length = 128)
    (h : x.take (room64 hf) = x'.take (room64 hf)) : hashHN S hf 64 x ps a old = hashHN S hf 64 x' ps a old := by
  rw [hashHN, hashHN]
  dsimp only
  have hr : room64 hf ≤ 2 * 64 := by cases hf <;> decide
  rw [slice_zero, slice_zero, if_pos (by omega), if_pos (by omega), List.take_of_length_le (l := x) (by omega),
    List.take_of_length_le (l := x') (by omega)]
  cases prfN S hf 64 (adrsBytes (setKeyAndMask a 0)) ps (List.replicate 64 0) with
  | err e => rw [err_bind, err_bind]
  | panic => rw [panic_bind, panic_bind]
  | ok k =>
  rw [ok_bind, ok_bind]
  cases prfN S hf 64 (adrsBytes (setKeyAndMask (setKeyAndMask a 0) 1)) ps (List.replicate 64 0) with
  | err e => rw [err_bind, err_bind]
  | panic => rw [panic_bind, panic_bind]
  | ok m0 =>
  rw [ok_bind, ok_bind]
  cases prfN S hf 64 (adrsBytes (setKeyAndMask (setKeyAndMask (setKeyAndMask a 0) 1) 2)) ps (List.replicate 64 0) with
  | err e => rw [err_bind, err_bind]
  | panic => rw [panic_bind, panic_bind]
  | ok m1 =>
  rw [ok_bind, ok_bind]
  rw [ok_bind, ok_bind, coreHashN_64_same S hf hs 1 k.2 (xorBytes x (m0.2 ++ m1.2)) (xorBytes x' (m0.2 ++ m1.2)) (2 * 64) old
    (by rw [xorBytes, xorBytes, List.length_zipWith, List.length_zipWith, hx, hx']) hr (xor_take h)]

theorem prfN_64_128 (m key old : Bytes) (hm : m.length = 32) (hk : key.length = 64) :
    prfN S .shake_128 64 m key old = ok (0, Spec.PRFn (Qrl.shake128 64) 64 key m) := by
  rw [prfN, coreHashN, if_neg (by decide), toByteN, if_neg (by decide), ok_bind, slice_zero, slice_zero, if_pos (by omega), if_pos (by omega),
    ok_bind, ok_bind, List.take_of_length_le (by omega), List.take_of_length_le (by omega)]
  simp only [or_true, if_true]
  have l : (toByte 3 64 ++ key ++ m).length = 160 := by
    rw [List.length_append, List.length_append, length_toByte64, hk, hm]
  have e := fipsShake128_short 64 (toByte 3 64 ++ key ++ m) (by omega)
  rw [l] at e
  rw [e, ok_bind, Spec.PRFn, toByte_rs, toByte_eq_be]

/-- `prf` with SHAKE-256 always has a value. -/
theorem prfN_64_256 (m key old : Bytes) (hm : m.length = 32) (hk : 64 ≤ key.length) :
    prfN S .shake_256 64 m key old = ok (0, Qrl.shake256 64 (toByte 3 64 ++ key.take 64 ++ m.take 8 ++ List.replicate 24 0)) := by
  rw [prfN, coreHashN, if_neg (by decide), toByteN, if_neg (by decide), ok_bind, slice_zero, slice_zero, if_pos (by omega), if_pos (by omega),
    ok_bind, ok_bind, List.take_of_length_le (l := m) (by omega)]
  simp only [or_true, if_true]
  have htk : (toByte 3 64 ++ key.take 64).length = 128 := by
    rw [List.length_append, length_toByte64, List.length_take]; omega
  have l : (toByte 3 64 ++ key.take 64 ++ m).length = 160 := by rw [List.length_append, htk, hm]
  have e := fipsShake256_eq 64 (toByte 3 64 ++ key.take 64 ++ m)
  have t1 : (toByte 3 64 ++ key.take 64 ++ m).take 136 = toByte 3 64 ++ key.take 64 ++ m.take 8 := by
    rw [show 136 = (toByte 3 64 ++ key.take 64).length + 8 by omega, List.take_length_add_append]
  have t2 : (toByte 3 64 ++ key.take 64 ++ m).take 24 = List.replicate 24 0 := by
    rw [List.append_assoc, List.take_append_of_le_length (by rw [length_toByte64]; decide)]
    decide +kernel
  rw [l, Spec.rustAbsorbed, l, if_neg (by decide), if_pos (by decide), t1, show 160 - 136 = 24 from rfl, t2] at e
  rw [e]
  rfl

theorem adrs_take8 (a : Adrs) : (adrsBytes a).take 8 = toByte a.w0 4 ++ toByte a.w1 4 := by
  rw [adrsBytes]
  simp only [List.append_assoc]
  rw [← List.append_assoc]
  exact List.take_left' (by rw [List.length_append, toByte_rs, toByte_eq_be, length_be, toByte_rs, toByte_eq_be, length_be])

theorem getSeedN_64 (sk : Bytes) (hk : 64 ≤ sk.length) (a : Adrs) :
    getSeedN S .shake_256 64 sk a =
      ok (Qrl.shake256 64 (toByte 3 64 ++ sk.take 64 ++ (toByte a.w0 4 ++ toByte a.w1 4) ++ List.replicate 24 0),
        setKeyAndMask (setHash (setChain a 0) 0) 0) := by
  rw [getSeedN]
  dsimp only
  rw [prfN_64_256 S _ sk _ (length_adrsBytes _) hk, ok_bind, adrs_take8]
  rfl

theorem be32_take8 {i : Nat} (h : i < 2 ^ 32) : (toByte i 32).take 8 = List.replicate 8 0 := by
  have e : 2 ^ 32 ≤ 256 ^ 24 := by decide
  rw [toByte_rs, toByte_eq_be]
  refine List.ext_getElem (by rw [List.length_take, length_be, List.length_replicate]; rfl) fun j h1 h2 => ?_
  rw [List.length_replicate] at h2
  rw [List.getElem_take, List.getElem_replicate]
  simp only [Spec.be, List.getElem_map, List.getElem_range]
  have : 256 ^ 24 ≤ 256 ^ (32 - 1 - j) := Nat.pow_le_pow_right (by decide) (by omega)
  rw [Nat.div_eq_of_lt (by omega)]
  rfl

theorem expandSeedN_64_256 (key : Bytes) (hk : 64 ≤ key.length) : ∀ (buf : List Bytes) (i : Nat), i + buf.length ≤ 2 ^ 32 →
    expandSeedN S .shake_256 64 key i buf =
      ok (List.replicate buf.length (Qrl.shake256 64 (toByte 3 64 ++ key.take 64 ++ List.replicate 8 0 ++ List.replicate 24 0)))
  | [], _, _ => rfl
  | o :: os, i, h => by
    rw [List.length_cons] at h
    rw [expandSeedN, prfN_64_256 S _ key o (length_toByte32 i) hk, be32_take8 (by omega), ok_bind]
    dsimp only
    rw [expandSeedN_64_256 key hk os (i + 1) (by omega), ok_bind]
    rfl

end Qrl.Rs
