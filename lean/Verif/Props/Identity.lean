import Verif.Props.Fast
/-!
# C63: addresses, secret keys and extended seeds identify what they are derived from
-/

namespace Qrl.Props

open Outcome Spec

/-- The parts of an address. -/
theorem address_parts (S : Sha256) (epk a : Bytes) (h : getAddress S epk = ok a) :
    ∃ b0 b1 b2 rest, epk = b0 :: b1 :: b2 :: rest ∧ rest.length = 64 ∧
      a = [UInt8.ofNat (b0.toNat % 16), b1, 0] ++ S.hash epk ++
        (S.hash ([UInt8.ofNat (b0.toNat % 16), b1, 0] ++ S.hash epk)).drop 28 := by
  obtain ⟨hl, b, hb, hb0⟩ := (C10_address_throws S epk).1.mp ⟨a, h⟩
  match epk, hl, hb with
  | b0 :: b1 :: b2 :: rest, hl, hb =>
    refine ⟨b0, b1, b2, rest, rfl, by simpa using hl, ?_⟩
    have hd := fromBytes_three b0 b1 b2
    have hbb : b = b1 := by simpa using hb.symm
    subst hbb
    have hn := C07_descriptor_normalise b0 b b2 _ hd
    have := C10_address_value S (b0 :: b :: b2 :: rest) _ hl hd hb0
    rw [h, hn] at this
    exact Outcome.ok.inj this

/-- C63. Two public keys with the same address are equal, or are a collision of SHA-256. -/
theorem C63_address_binds (S : Sha256) (epk epk' a : Bytes) (h : getAddress S epk = ok a)
    (h' : getAddress S epk' = ok a) : epk = epk' ∨ (epk ≠ epk' ∧ S.hash epk = S.hash epk') := by
  obtain ⟨b0, b1, b2, r, _, _, e1⟩ := address_parts S epk a h
  obtain ⟨c0, c1, c2, s, _, _, e2⟩ := address_parts S epk' a h'
  by_cases he : epk = epk'
  · exact Or.inl he
  · right
    refine ⟨he, ?_⟩
    rw [e1] at e2
    have := (List.append_inj e2 (by simp [S.length_hash])).1
    exact (List.append_inj this rfl).2

/-- C63. An address tells the hash function and the height of its key: they are in its first two bytes. -/
theorem C63_address_tells (S : Sha256) (epk a : Bytes) (h : getAddress S epk = ok a) :
    keyHash a = keyHash epk ∧ keyHeight a = keyHeight epk := by
  obtain ⟨b0, b1, b2, r, e, _, e1⟩ := address_parts S epk a h
  subst e
  subst e1
  constructor
  · simp only [keyHash, List.cons_append, List.getD_cons_zero, UInt8.toNat_ofNat']
    omega
  · rfl

/-- C63. Two signers (in any state) with equal 96 secret bytes have the same seed, or their seeds are a collision of
SHAKE256 with 96 bytes of output. -/
theorem C63_secret_binds (S : Sha256) (seed seed' : Bytes) (height height' : UInt8) (hf hf' af af' : Nat)
    (o0 o0' : XmssFast) (hnew : XmssFast.new S seed height hf af = ok o0)
    (hnew' : XmssFast.new S seed' height' hf' af' = ok o0') (cs cs' : List Call) (rs rs' : List Reply) (o o' : XmssFast)
    (hrun : runCalls (XmssFast.call S) o0 cs = some (rs, o)) (hrun' : runCalls (XmssFast.call S) o0' cs' = some (rs', o'))
    (h : (o.sk.drop 4).take 96 = (o'.sk.drop 4).take 96) :
    seed = seed' ∨ (seed ≠ seed' ∧ shake256 96 seed = shake256 96 seed') := by
  have key : ∀ {seed : Bytes} {height : UInt8} {hf af : Nat} {o0 o : XmssFast} {cs : List Call} {rs : List Reply},
      XmssFast.new S seed height hf af = ok o0 → runCalls (XmssFast.call S) o0 cs = some (rs, o) →
      (o.sk.drop 4).take 96 = shake256 96 seed := by
    intro seed height hf af o0 o cs rs hn hr
    have h1 := (C26_fast_stable S seed height hf af o0 hn cs rs o hr).2.2.1
    obtain ⟨_, _, f, rfl, _⟩ := fast_fresh hn
    have h2 := (C15_fast_key S seed height f af o0 hn).2.2.2.2
    rw [h1, h2]
    simp
  rw [key hnew hrun, key hnew' hrun'] at h
  by_cases hs : seed = seed'
  · exact Or.inl hs
  · exact Or.inr ⟨hs, h⟩

/-- C63. Two signers (in any state) with the same extended seed were built from the same seed, height, hash function
and address format, and had the same keys: the extended seed determines everything but the index. -/
theorem C63_extended_seed_binds (S : Sha256) (seed seed' : Bytes) (height height' : UInt8) (hf hf' af af' : Nat)
    (haf : af < 16) (haf' : af' < 16)
    (o0 o0' : XmssFast) (hnew : XmssFast.new S seed height hf af = ok o0)
    (hnew' : XmssFast.new S seed' height' hf' af' = ok o0') (cs cs' : List Call) (rs rs' : List Reply) (o o' : XmssFast)
    (hrun : runCalls (XmssFast.call S) o0 cs = some (rs, o)) (hrun' : runCalls (XmssFast.call S) o0' cs' = some (rs', o'))
    (h : o.getExtendedSeed = o'.getExtendedSeed) :
    seed = seed' ∧ height = height' ∧ hf = hf' ∧ af = af' ∧ o0 = o0' := by
  have h1 := C09_extended_seed_roundtrip S seed height hf af haf o0 hnew cs rs o hrun
  have h2 := C09_extended_seed_roundtrip S seed' height' hf' af' haf' o0' hnew' cs' rs' o' hrun'
  rw [h, h2] at h1
  cases h1
  obtain ⟨_, _, _, _, _, a1, a2, a3, a4, _⟩ := fast_fresh hnew
  obtain ⟨_, _, _, _, _, b1, b2, b3, b4, _⟩ := fast_fresh hnew'
  exact ⟨a4.symm.trans b4, a1.symm.trans b1, a2.symm.trans b2, a3.symm.trans b3, rfl⟩

/-- The hypotheses are met: with a hash function that only looks at the length two different keys have the same address (and are the
announced collision). -/
example : ∃ a, getAddress toySha (1 :: 2 :: 0 :: List.replicate 64 7) = ok a ∧
    getAddress toySha (1 :: 2 :: 0 :: List.replicate 64 8) = ok a := by
  refine ⟨_, C10_address_value toySha (1 :: 2 :: 0 :: List.replicate 64 7) _ (by simp) (fromBytes_three 1 2 0) (by decide),
    ?_⟩
  exact C10_address_value toySha (1 :: 2 :: 0 :: List.replicate 64 8) _ (by simp) (fromBytes_three 1 2 0) (by decide)

end Qrl.Props
