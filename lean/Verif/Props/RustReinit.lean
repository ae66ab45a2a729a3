import Verif.Props.RustSign
import Verif.Props.UpdateSk
import Verif.Spec.RustReinit
/-!
# C60 and C61: the public `initialize_tree` and `xmss_update_sk` of the Rust port
-/

namespace Qrl.Props

open Qrl.Spec

/-- The object is the canonical one for parameter `w` at index `i`. -/
def RsCanon (S : Sha256) (f : HashFn) (seed : Bytes) (height : UInt8) (w i : Nat) (o : Rs.XMSSFast) : Prop :=
  ∃ (hw : w = 2 ∨ w = 4 ∨ w = 16 ∨ w = 256) (p : WotsParams) (k q : Nat) (o1 : Rs.XMSSFast),
    FastOk S o1.hashFunction w (keyOf S f w height.toNat (lenW_pos hw) seed) p k q o1.cpp ∧ o1.hashFunction = f ∧
    o1.height = height ∧ o1.seed = seed ∧ i ≤ 2 ^ height.toNat ∧
    o = Rs.fastAt S (keyOf S f w height.toNat (lenW_pos hw) seed) o1 i

theorem rsCanon_index {S : Sha256} {f : HashFn} {seed : Bytes} {height : UInt8} {w i : Nat} {o : Rs.XMSSFast}
    (h : RsCanon S f seed height w i o) : o.getIndex = .ok i := by
  obtain ⟨hw, p, k, q, o1, H, rfl, rfl, e3, hi, rfl⟩ := h
  exact Rs.rs_getIndex H i hi

theorem rsCanon_run {b : Rs.Build} {S : Sha256} {f : HashFn} {seed : Bytes} {height : UInt8} (hs : seed.length = 48)
    (hh : GoodHeight height) (cs : List FullCall) : ∀ {w i : Nat} {o : Rs.XMSSFast}, RsCanon S f seed height w i o → SupportedW cs →
    match partialFull (2 ^ height.toNat) (fun w => rustSignature S f w height.toNat seed) w i cs with
    | some (rs, w', i') => ∃ o', Rs.runFull b S o cs = some (rs, o') ∧ RsCanon S f seed height w' i' o'
    | none => Rs.runFull b S o cs = none := by
  induction cs with
  | nil => intro w i o h _; exact ⟨o, rfl, h⟩
  | cons c cs ih =>
    intro w i o h hc
    have hc' : SupportedW cs := fun w hw => hc w (List.mem_cons_of_mem _ hw)
    -- what remains once one step is known
    have go : ∀ (r : FullReply) (w' i' : Nat) (o' : Rs.XMSSFast), o.fullCall b S c = some (r, o') →
        RsCanon S f seed height w' i' o' →
        match (partialFull (2 ^ height.toNat) (fun w => rustSignature S f w height.toNat seed) w' i' cs).map
            fun x => (r :: x.1, x.2) with
        | some (rs, w', i') => ∃ o', Rs.runFull b S o (c :: cs) = some (rs, o') ∧ RsCanon S f seed height w' i' o'
        | none => Rs.runFull b S o (c :: cs) = none := by
      intro r w' i' o' e1 h1
      have := ih h1 hc'
      rw [Rs.runFull, e1]
      cases hx : partialFull (2 ^ height.toNat) (fun w => rustSignature S f w height.toNat seed) w' i' cs with
      | none => rw [hx] at this; dsimp only at this ⊢; rw [this]; rfl
      | some x =>
        rw [hx] at this
        obtain ⟨o2, e2, h2⟩ := this
        exact ⟨o2, by dsimp only; rw [e2], h2⟩
    have h' := h
    obtain ⟨hw, p, k, q, o1, H, rfl, rfl, e3, hi, rfl⟩ := h'
    have mk : ∀ j, j ≤ 2 ^ o1.height.toNat → RsCanon S o1.hashFunction seed o1.height w j
        (Rs.fastAt S (keyOf S o1.hashFunction w o1.height.toNat (lenW_pos hw) seed) o1 j) :=
      fun j hj => ⟨hw, p, k, q, o1, H, rfl, rfl, e3, hj, rfl⟩
    cases c with
    | initializeTree w' =>
      have hw' := hc w' (by simp)
      obtain ⟨p', k', q', o2, f1, f2, f3, f4, f5, H2⟩ := Rs.initializeTree_rs (S := S) b
        (Rs.fastAt S (keyOf S o1.hashFunction w o1.height.toNat (lenW_pos hw) seed) o1 i) hw' (by show o1.seed.length = 48; rw [e3]; exact hs) hh
      have f3' : o2.height = o1.height := f3
      have f2' : o2.hashFunction = o1.hashFunction := f2
      have f4' : o2.seed = seed := f4.trans e3
      rw [partialFull]
      refine go none w' 0 o2 ?_ ⟨hw', p', k', q', o2, ?_, f2', f3', f4', Nat.zero_le _, ?_⟩
      · rw [Rs.XMSSFast.fullCall, f1]
      · have e5 : (Rs.fastAt S (keyOf S o1.hashFunction w o1.height.toNat (lenW_pos hw) seed) o1 i).seed = seed := e3
        rw [e5] at H2
        exact H2
      · have e5 : (Rs.fastAt S (keyOf S o1.hashFunction w o1.height.toNat (lenW_pos hw) seed) o1 i).seed = seed := e3
        rw [e5] at H2
        exact (Rs.rs_fastAt_zero H2).symm
    | basic c =>
      cases c with
      | setIndex n =>
        rw [partialFull]
        by_cases hn : i ≤ n.toNat ∧ n.toNat < 2 ^ o1.height.toNat
        · rw [if_pos hn]
          refine go _ w n.toNat _ ?_ (mk n.toNat (by omega))
          rw [Rs.XMSSFast.fullCall, Rs.XMSSFast.call, Rs.rs_setIndex_ok H b i n.toNat hn.1 hn.2]
        · rw [if_neg hn]
          refine go _ w i _ ?_ (mk i hi)
          rw [Rs.XMSSFast.fullCall, Rs.XMSSFast.call, Rs.rs_setIndex_fail H b i n.toNat hi (by omega)]
          rfl
      | sign m =>
        rw [partialFull]
        by_cases hn : i < 2 ^ o1.height.toNat
        · rw [if_pos hn, rustSignature]
          cases hm : rustSigned o1.hashFunction (seedSignKey S o1.hashFunction w o1.height.toNat seed i) m with
          | none =>
            have := Rs.rs_sign_panic H b i hn m hm
            simp only [Option.map_none]
            rw [Rs.runFull, Rs.XMSSFast.fullCall, Rs.XMSSFast.call, this]
          | some m' =>
            have := Rs.rs_sign_ok H b i hn m m' hm
            simp only [Option.map_some]
            refine go _ w (i + 1) _ ?_ (mk (i + 1) hn)
            rw [Rs.XMSSFast.fullCall, Rs.XMSSFast.call, this]
            rfl
        · obtain rfl : i = 2 ^ o1.height.toNat := by omega
          rw [if_neg hn]
          refine go _ w _ _ ?_ (mk _ hi)
          rw [Rs.XMSSFast.fullCall, Rs.XMSSFast.call, Rs.rs_sign_fail H b m]
          rfl

/-- C60. On any history of `set_index`, `sign` and `initialize_tree(w)` with `w` among 2, 4, 16, 256, in both build modes, a new
`XMSSFast` behaves like the ideal object whose `initialize_tree(w)` sets the parameter and puts the counter back to zero: same
replies, same final index, panic at the same call. -/
theorem C60_full_history (b : Rs.Build) (S : Sha256) (seed : Bytes) (height : UInt8) (hf : HashFn) (w : Nat)
    (hw : w = 2 ∨ w = 4 ∨ w = 16 ∨ w = 256) (hs : seed.length = 48) (hh : GoodHeight height) (o0 : Rs.XMSSFast)
    (hnew : Rs.XMSSFast.new b S seed height hf w = .ok o0) (cs : List FullCall) (hcs : SupportedW cs) :
    match partialFull (2 ^ height.toNat) (fun w => rustSignature S hf w height.toNat seed) w 0 cs with
    | some (rs, _, i) => ∃ o, Rs.runFull b S o0 cs = some (rs, o) ∧ o.getIndex = .ok i
    | none => Rs.runFull b S o0 cs = none := by
  obtain ⟨p, k, q, o, e1, e2, e3, e4, e5, H⟩ := Rs.fast_new_rs (S := S) b seed height hf hw hs hh
  rw [e1] at hnew
  cases hnew
  have hcan : RsCanon S hf seed height w 0 o0 := ⟨hw, p, k, q, o0, H, e2, e3, e4, Nat.zero_le _, (Rs.rs_fastAt_zero H).symm⟩
  have := rsCanon_run (b := b) hs hh cs hcan hcs
  revert this
  cases partialFull (2 ^ height.toNat) (fun w => rustSignature S hf w height.toNat seed) w 0 cs with
  | none => exact id
  | some x => rintro ⟨o', h1, h2⟩; exact ⟨o', h1, rsCanon_index h2⟩

/-- C60. **So one-time keys are used twice** by a caller who calls the public `initialize_tree` between two signatures: both
carry index 0, and both are the specified signatures with that one-time key. -/
theorem C60_rewind_refuted (b : Rs.Build) (S : Sha256) (seed : Bytes) (height : UInt8) (hf : HashFn) (w : Nat)
    (hw : w = 2 ∨ w = 4 ∨ w = 16 ∨ w = 256) (hs : seed.length = 48) (hh : GoodHeight height) (o0 : Rs.XMSSFast)
    (hnew : Rs.XMSSFast.new b S seed height hf w = .ok o0) (m1 m2 : Bytes) (h1 : rustShort hf m1) (h2 : rustShort hf m2) :
    ∃ o, Rs.runFull b S o0 [.basic (.sign m1), .initializeTree w, .basic (.sign m2)] =
      some ([some (.sig (seedSignature S hf w height.toNat seed 0 m1)), none,
        some (.sig (seedSignature S hf w height.toNat seed 0 m2))], o) ∧ o.getIndex = .ok 1 := by
  have h := C60_full_history b S seed height hf w hw hs hh o0 hnew [.basic (.sign m1), .initializeTree w, .basic (.sign m2)] (by
    intro w' hw'; simp at hw'; rw [hw']; exact hw)
  have hp : 0 < 2 ^ height.toNat := Nat.two_pow_pos _
  simp only [partialFull, if_pos hp, rustSignature, rustSigned_short h1, rustSigned_short h2, Option.map_some] at h
  exact h

/-- C61. On a key of at least four bytes `xmss_update_sk` does exactly what the C++ one does (C47); on a shorter one it
panics. -/
theorem C61_update_sk (sk : Bytes) (k : UInt64) :
    (4 ≤ sk.length → ∃ rc sk', Rs.xmssUpdateSk sk k = .ok (rc, sk') ∧ xmssUpdateSK sk k = .ok (rc, sk')) ∧
    (sk.length < 4 → Rs.xmssUpdateSk sk k = .panic) := by
  constructor
  · intro h
    match sk, h with
    | a :: b :: c :: d :: rest, h =>
      by_cases hk : k.toNat ≤ skIndex (a :: b :: c :: d :: rest)
      · refine ⟨-1, _, ?_, (C47_updateSK _ k h).1 hk⟩
        rw [Rs.xmssUpdateSk, Rs.be32At_sim _ _ (be32At_eq h), Rs.Res.ok_bind, if_pos (show Spec.byteVal _ ≥ k.toNat from hk)]
      · have e : ∀ n x, UInt8.ofNat ((x % 2 ^ 32) >>> n) = UInt8.ofNat (x >>> n) ∨ 24 < n := by
          intro n x
          rcases Nat.lt_or_ge 24 n with h | h
          · exact Or.inr h
          · left
            apply UInt8.toNat_inj.mp
            rw [UInt8.toNat_ofNat', UInt8.toNat_ofNat', Nat.shiftRight_eq_div_pow, Nat.shiftRight_eq_div_pow,
              show (2 : Nat) ^ 32 = 2 ^ n * 2 ^ (32 - n) by rw [← Nat.pow_add]; congr 1; omega, Nat.mod_mul_right_div_self,
              show (2 : Nat) ^ (32 - n) = 2 ^ 8 * 2 ^ (24 - n) by rw [← Nat.pow_add]; congr 1; omega, Nat.mod_mul_right_mod]
        have e0 : UInt8.ofNat (k.toNat % 2 ^ 32) = UInt8.ofNat k.toNat := (e 0 k.toNat).resolve_right (by omega)
        refine ⟨0, UInt8.ofNat (k.toNat >>> 24) :: UInt8.ofNat (k.toNat >>> 16) :: UInt8.ofNat (k.toNat >>> 8) ::
          UInt8.ofNat k.toNat :: rest, ?_, ?_⟩
        rotate_left
        · rw [xmssUpdateSK, be32At_eq h, Outcome.ok_bind, if_neg (show ¬ Spec.byteVal _ ≥ k.toNat from hk)]
          simp only [wr, List.length_cons, show 3 < rest.length + 1 + 1 + 1 + 1 by omega,
            show 2 < rest.length + 1 + 1 + 1 + 1 by omega, show 1 < rest.length + 1 + 1 + 1 + 1 by omega,
            show 0 < rest.length + 1 + 1 + 1 + 1 by omega, if_true, Outcome.ok_bind, List.set_cons_succ, List.set_cons_zero]
          rw [(e 24 k.toNat).resolve_right (by omega), (e 16 k.toNat).resolve_right (by omega),
            (e 8 k.toNat).resolve_right (by omega), e0]
        · rw [Rs.xmssUpdateSk, Rs.be32At_sim _ _ (be32At_eq h), Rs.Res.ok_bind, if_neg (show ¬ Spec.byteVal _ ≥ k.toNat from hk)]
          simp only [Rs.wr, List.length_cons, show 3 < rest.length + 1 + 1 + 1 + 1 by omega,
            show 2 < rest.length + 1 + 1 + 1 + 1 by omega, show 1 < rest.length + 1 + 1 + 1 + 1 by omega,
            show 0 < rest.length + 1 + 1 + 1 + 1 by omega, if_true, Rs.Res.ok_bind, List.set_cons_succ, List.set_cons_zero]
  · intro h
    match sk, h with
    | [], _ => rfl
    | [a], _ => rfl
    | [a, b], _ => rfl
    | [a, b, c], _ => rfl

/-- C61. So it too rewinds any key to index 0 when asked for `2^32`, reporting success. -/
theorem C61_rewind_refuted (sk : Bytes) (h : 4 ≤ sk.length) :
    ∃ sk', Rs.xmssUpdateSk sk (2 ^ 32) = .ok (0, sk') ∧ skIndex sk' = 0 := by
  obtain ⟨rc, sk', h1, h2⟩ := (C61_update_sk sk (2 ^ 32)).1 h
  obtain ⟨sk2, h3, h4⟩ := C47_updateSK_rewind_refuted sk h
  rw [h3] at h2
  cases h2
  exact ⟨sk', h1, h4⟩

/-- A history with a change of parameter and two rewinds. -/
example : ∃ o0 o, Rs.XMSSFast.new .debug toySha zeroSeed 4 .shake_128 16 = .ok o0 ∧
    Rs.runFull .debug toySha o0 [.basic (.sign [1]), .initializeTree 16, .basic (.sign [2])] =
      some ([some (.sig (seedSignature toySha .shake_128 16 4 zeroSeed 0 [1])), none,
        some (.sig (seedSignature toySha .shake_128 16 4 zeroSeed 0 [2]))], o) := by
  obtain ⟨o0, _, h, _⟩ := C51_fast_same_key .debug toySha zeroSeed 4 .shake_128 rfl goodHeight4
  obtain ⟨o, h1, _⟩ := C60_rewind_refuted .debug toySha zeroSeed 4 .shake_128 16 (by omega) rfl goodHeight4 o0 h [1] [2]
    (by simp [rustShort, rustRoom]) (by simp [rustShort, rustRoom])
  exact ⟨o0, o, h, h1⟩

example : Rs.xmssUpdateSk [0, 0, 0, 5, 7] 9 = .ok (0, [0, 0, 0, 9, 7]) ∧ Rs.xmssUpdateSk [0, 0, 5] 9 = .panic := by
  constructor <;> rfl

end Qrl.Props
