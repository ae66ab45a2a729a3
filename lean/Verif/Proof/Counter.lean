import Verif.Proof.FastApi
import Verif.Spec.Counter

namespace Qrl

open Outcome Spec

theorem counterRun_range (limit : Nat) (σ : Nat → Bytes → Bytes) (cs : List Call) : ∀ i, i ≤ limit →
    i ≤ (counterRun limit σ i cs).2 ∧ (counterRun limit σ i cs).2 ≤ limit := by
  induction cs with
  | nil => intro i hi; exact ⟨Nat.le_refl _, hi⟩
  | cons c cs ih =>
    intro i hi
    simp only [counterRun]
    have h1 : i ≤ (counterCall limit σ i c).2 ∧ (counterCall limit σ i c).2 ≤ limit := by
      cases c with
      | setIndex n => rw [counterCall]; split <;> simp only <;> omega
      | sign m => rw [counterCall]; split <;> simp only <;> omega
    have h2 := ih _ h1.2
    omega

/-- The indices used are increasing and lie between the initial and the final counter. -/
theorem counterRun_indices (limit : Nat) (σ : Nat → Bytes → Bytes) (idx : Bytes → Nat)
    (hidx : ∀ i m, i < limit → idx (σ i m) = i) (cs : List Call) : ∀ i, i ≤ limit →
    ((signatures (counterRun limit σ i cs).1).map idx).Pairwise (· < ·) ∧
    ∀ s ∈ signatures (counterRun limit σ i cs).1, i ≤ idx s ∧ idx s < (counterRun limit σ i cs).2 := by
  induction cs with
  | nil => intro i hi; simp [counterRun, signatures]
  | cons c cs ih =>
    intro i hi
    simp only [counterRun]
    cases c with
    | setIndex n =>
      rw [counterCall]
      by_cases hc : i ≤ n.toNat ∧ n.toNat < limit
      · rw [if_pos hc]
        simp only [signatures]
        obtain ⟨h1, h2⟩ := ih n.toNat (by omega)
        exact ⟨h1, fun s hs => ⟨by have := (h2 s hs).1; omega, (h2 s hs).2⟩⟩
      · rw [if_neg hc]
        simp only [signatures]
        exact ih i hi
    | sign m =>
      rw [counterCall]
      by_cases hc : i < limit
      · rw [if_pos hc]
        simp only [signatures]
        obtain ⟨h1, h2⟩ := ih (i + 1) (by omega)
        have h3 := counterRun_range limit σ cs (i + 1) (by omega)
        refine ⟨?_, ?_⟩
        · rw [List.map_cons, List.pairwise_cons]
          refine ⟨?_, h1⟩
          intro a ha
          rw [List.mem_map] at ha
          obtain ⟨s, hs, rfl⟩ := ha
          have := (h2 s hs).1
          rw [hidx i m hc]; omega
        · intro s hs
          rcases List.mem_cons.mp hs with rfl | hs
          · rw [hidx i m hc]; omega
          · have := h2 s hs; omega
      · rw [if_neg hc]
        simp only [signatures]
        exact ih i hi

theorem pairwise_lt_length (l : List Nat) : ∀ a b, l.Pairwise (· < ·) → (∀ x ∈ l, a ≤ x ∧ x < b) → a ≤ b →
    l.length ≤ b - a := by
  induction l with
  | nil => intro a b _ _ _; simp
  | cons x xs ih =>
    intro a b hp hr hab
    rw [List.pairwise_cons] at hp
    have hx := hr x (List.mem_cons_self ..)
    have := ih (x + 1) b hp.2 (fun y hy => ⟨hp.1 y hy, (hr y (List.mem_cons_of_mem _ hy)).2⟩) (by omega)
    simp only [List.length_cons]; omega

theorem counterRun_signs (limit : Nat) (σ : Nat → Bytes → Bytes) (ms : List Bytes) : ∀ i, i + ms.length ≤ limit →
    counterRun limit σ i (ms.map Call.sign) =
      ((ms.zipIdx i).map fun x => Reply.sig (σ x.2 x.1), i + ms.length) := by
  induction ms with
  | nil => intro i _; rfl
  | cons m ms ih =>
    intro i hi
    simp only [List.length_cons] at hi
    simp only [List.map_cons, counterRun, counterCall]
    rw [if_pos (by omega)]
    simp only
    rw [ih (i + 1) (by omega), List.zipIdx_cons, List.map_cons, List.length_cons,
      show i + (ms.length + 1) = i + 1 + ms.length by omega]

section
variable {S : Sha256} {hf : HashFn} {w : Nat} {K : KeyParts} {p : WotsParams} {k q : Nat} {o0 : XmssFast}

/-- One call refines the counter. -/
theorem FastOk.call (H : FastOk S hf w K p k q o0) (i : Nat) (hi : i ≤ 2 ^ o0.height.toNat) (c : Call) :
    XmssFast.call S (fastAt S hf K o0 i) c =
      some ((counterCall (2 ^ o0.height.toNat)
          (signature (hf.prim S) w o0.height.toNat K.skSeed K.skPrf K.ps) i c).1,
        fastAt S hf K o0 (counterCall (2 ^ o0.height.toNat)
          (signature (hf.prim S) w o0.height.toNat K.skSeed K.skPrf K.ps) i c).2) := by
  cases c with
  | setIndex n =>
    rw [XmssFast.call, counterCall]
    by_cases hc : i ≤ n.toNat ∧ n.toNat < 2 ^ o0.height.toNat
    · rw [if_pos hc, H.setIndex_ok i n.toNat hc.1 hc.2]
    · rw [if_neg hc, H.setIndex_throw i n.toNat hi (by omega)]
  | sign m =>
    rw [XmssFast.call, counterCall]
    by_cases hc : i < 2 ^ o0.height.toNat
    · rw [if_pos hc, H.sign_ok i hc m]
    · have : i = 2 ^ o0.height.toNat := by omega
      rw [if_neg hc, this, H.sign_throw m]

theorem FastOk.run (H : FastOk S hf w K p k q o0) (cs : List Call) : ∀ (i : Nat), i ≤ 2 ^ o0.height.toNat →
    runCalls (XmssFast.call S) (fastAt S hf K o0 i) cs =
      some ((counterRun (2 ^ o0.height.toNat)
          (signature (hf.prim S) w o0.height.toNat K.skSeed K.skPrf K.ps) i cs).1,
        fastAt S hf K o0 (counterRun (2 ^ o0.height.toNat)
          (signature (hf.prim S) w o0.height.toNat K.skSeed K.skPrf K.ps) i cs).2) := by
  induction cs with
  | nil => intro i _; rfl
  | cons c cs ih =>
    intro i hi
    rw [runCalls, H.call i hi c]
    simp only
    have hle : (counterCall (2 ^ o0.height.toNat)
        (signature (hf.prim S) w o0.height.toNat K.skSeed K.skPrf K.ps) i c).2 ≤ 2 ^ o0.height.toNat := by
      cases c with
      | setIndex n => rw [counterCall]; split <;> simp only <;> omega
      | sign m => rw [counterCall]; split <;> simp only <;> omega
    rw [ih _ hle]
    rfl

end

end Qrl
