import Verif.Spec.Queries
import Verif.Model.XmssApi
import Verif.Proof.Shake
/-!
# Counting SHA-256 evaluations
-/

namespace Qrl.Spec

open Outcome

theorem Asks.mono {α : Type} {n b n' b' : Nat} {f : Sha256 → α} (h : Asks n b f) (hn : n ≤ n') (hb : b ≤ b') : Asks n' b' f := by
  intro S
  obtain ⟨L, h1, h2, h3⟩ := h S
  exact ⟨L, by omega, by omega, h3⟩

theorem Asks.const {α : Type} (a : α) : Asks 0 0 (fun _ => a) := fun _ => ⟨[], by simp, by simp, fun _ _ => rfl⟩

theorem Asks.map {α β : Type} {n b : Nat} {f : Sha256 → α} (k : α → β) (h : Asks n b f) : Asks n b (fun S => k (f S)) := by
  intro S
  obtain ⟨L, h1, h2, h3⟩ := h S
  exact ⟨L, h1, h2, fun S' hS => by simp only [h3 S' hS]⟩

/-- One computation after the other. -/
theorem Asks.seq {α β : Type} {n b m c : Nat} {f : Sha256 → α} {g : Sha256 → α → β} (P : α → Prop) (h : Asks n b f)
    (hP : ∀ S, P (f S)) (hg : ∀ a, P a → Asks m c (fun S => g S a)) : Asks (n + m) (b + c) (fun S => g S (f S)) := by
  intro S
  obtain ⟨L, h1, h2, h3⟩ := h S
  obtain ⟨L', g1, g2, g3⟩ := hg (f S) (hP S) S
  refine ⟨L ++ L', by rw [List.length_append]; omega, by rw [List.filter_append, List.length_append]; omega, ?_⟩
  intro S' hS
  show g S' (f S') = g S (f S)
  rw [h3 S' (fun x hx => hS x (List.mem_append_left _ hx))]
  exact g3 S' (fun x hx => hS x (List.mem_append_right _ hx))

theorem Asks.two {α β γ : Type} {n b m c : Nat} {f : Sha256 → α} {g : Sha256 → β} (k : α → β → γ) (h : Asks n b f)
    (h' : Asks m c g) : Asks (n + m) (b + c) (fun S => k (f S) (g S)) :=
  Asks.seq (g := fun S a => k a (g S)) (fun _ => True) h (fun _ => trivial) (fun a _ => h'.map (k a))

theorem Asks.bindP {α β : Type} {n b m c : Nat} {f : Sha256 → Outcome α} {g : Sha256 → α → Outcome β} (P : α → Prop)
    (h : Asks n b f) (hP : ∀ S a, f S = ok a → P a) (hg : ∀ a, P a → Asks m c (fun S => g S a)) :
    Asks (n + m) (b + c) (fun S => f S >>= g S) := by
  refine Asks.seq (g := fun S x => x >>= g S) (fun x => ∀ a, x = ok a → P a) h (fun S a e => hP S a e) ?_
  intro x hx
  cases x with
  | ok a => exact hg a (hx a rfl)
  | throw e => exact (Asks.const (throw e)).mono (by omega) (by omega)
  | ub => exact (Asks.const ub).mono (by omega) (by omega)

theorem Asks.bind {α β : Type} {n b m c : Nat} {f : Sha256 → Outcome α} {g : Sha256 → α → Outcome β}
    (h : Asks n b f) (hg : ∀ a, Asks m c (fun S => g S a)) : Asks (n + m) (b + c) (fun S => f S >>= g S) :=
  Asks.bindP (fun _ => True) h (fun _ _ _ => trivial) (fun a _ => hg a)

/-- A first part that asks nothing. -/
theorem Asks.bind0 {α β : Type} {m c : Nat} (x : Outcome α) {g : Sha256 → α → Outcome β}
    (hg : ∀ a, x = ok a → Asks m c (fun S => g S a)) : Asks m c (fun S => x >>= g S) := by
  cases x with
  | ok a => exact hg a rfl
  | throw e => exact (Asks.const (throw e)).mono (by omega) (by omega)
  | ub => exact (Asks.const ub).mono (by omega) (by omega)

theorem Asks.ite {α : Type} {n b : Nat} (c : Prop) [Decidable c] {f g : Sha256 → α} (h1 : c → Asks n b f) (h2 : ¬ c → Asks n b g) :
    Asks n b (fun S => if c then f S else g S) := by
  by_cases h : c
  · simp only [if_pos h]; exact h1 h
  · simp only [if_neg h]; exact h2 h

/-! ## src/xmss-alt/hash.c -/

theorem prim_congr {S S' : Sha256} (hf : HashFn) (m : Bytes) (h : S'.hash m = S.hash m) : hf.prim S' m = hf.prim S m := by
  cases hf with
  | sha2_256 => simp only [HashFn.prim, h]
  | shake_128 => simp only [HashFn.prim]
  | shake_256 => simp only [HashFn.prim]

/-- One evaluation. -/
theorem Asks.one (hf : HashFn) (m : Bytes) (h : m.length ≤ 128) : Asks 1 0 (fun S => hf.prim S m) := by
  intro S
  refine ⟨[m], Nat.le_refl _, ?_, fun S' h => prim_congr hf _ (h _ (List.mem_singleton_self _))⟩
  rw [List.filter_cons_of_neg (by simp only [decide_eq_true_eq]; omega)]
  exact Nat.le_refl _

theorem Asks.one_big (hf : HashFn) (m : Bytes) : Asks 1 1 (fun S => hf.prim S m) := by
  intro S
  exact ⟨[m], Nat.le_refl _, List.length_filter_le _ _, fun S' h => prim_congr hf _ (h _ (List.mem_singleton_self _))⟩

theorem Asks.prim {n b : Nat} {f : Sha256 → Bytes} (hf : HashFn) (h : Asks n b f) (hl : ∀ S, (f S).length ≤ 128) :
    Asks (n + 1) b (fun S => hf.prim S (f S)) :=
  Asks.seq (g := fun S x => hf.prim S x) (c := 0) (fun x => x.length ≤ 128) h hl (fun x hx => Asks.one hf x hx)

theorem Asks.prim_big {n b : Nat} {f : Sha256 → Bytes} (hf : HashFn) (h : Asks n b f) :
    Asks (n + 1) (b + 1) (fun S => hf.prim S (f S)) :=
  Asks.seq (g := fun S x => hf.prim S x) (fun _ => True) h (fun _ => trivial) (fun x _ => Asks.one_big hf x)

theorem Asks.coreHash {n b m c : Nat} {fk fi : Sha256 → Bytes} (hf : HashFn) (t : Nat) (hk : Asks n b fk) (hi : Asks m c fi)
    (hl : ∀ S, (fk S).length + (fi S).length ≤ 96) : Asks (n + m + 1) (b + c) (fun S => Qrl.coreHash S hf t (fk S) (fi S)) := by
  have h2 := Asks.two (fun a b => toByte t 32 ++ a ++ b) hk hi
  have h3 := Asks.prim hf h2 (fun S => by
    have := hl S
    simp only [List.length_append, length_toByte]
    omega)
  simp only [Qrl.coreHash]
  exact h3

theorem Asks.coreHash_big {n b m c : Nat} {fk fi : Sha256 → Bytes} (hf : HashFn) (t : Nat) (hk : Asks n b fk) (hi : Asks m c fi) :
    Asks (n + m + 1) (b + c + 1) (fun S => Qrl.coreHash S hf t (fk S) (fi S)) := by
  have h2 := Asks.two (fun a b => toByte t 32 ++ a ++ b) hk hi
  have h3 := Asks.prim_big hf h2
  simp only [Qrl.coreHash]
  exact h3

theorem length_coreHash (S : Sha256) (hf : HashFn) (t : Nat) (k i : Bytes) : (Qrl.coreHash S hf t k i).length = 32 :=
  length_prim ..

theorem Asks.prf {n b : Nat} {fk : Sha256 → Bytes} (hf : HashFn) (i : Bytes) (hi : i.length ≤ 32) (hk : Asks n b fk)
    (hl : ∀ S, (fk S).length ≤ 64) : Asks (n + 1) b (fun S => Qrl.prf S hf i (fk S)) := by
  exact (Asks.coreHash hf 3 hk (Asks.const i) (fun S => by have := hl S; omega)).mono (by omega) (by omega)

theorem adrs_length (a : Adrs) : a.toBytes.length = 32 := by simp [Adrs.toBytes]

theorem xor_length (a b : Bytes) : (xorBytes a b).length ≤ b.length := by
  rw [xorBytes, List.length_zipWith]; omega

/-- `hash_h`: 4. -/
theorem Asks.hashH {n b : Nat} {f : Sha256 → Bytes} (hf : HashFn) (ps : Bytes) (hps : ps.length ≤ 64) (a : Adrs) (h : Asks n b f) :
    Asks (n + 4) b (fun S => Qrl.hashH S hf (f S) ps a) := by
  have p : ∀ x : Adrs, Asks 1 0 (fun S => Qrl.prf S hf x.toBytes ps) := fun x =>
    (Asks.prf hf x.toBytes (by rw [adrs_length]; exact Nat.le_refl _) (Asks.const ps) (fun _ => hps)).mono (by omega) (by omega)
  have e := Asks.coreHash hf 1 (p (a.setKeyAndMask 0)) (Asks.two (fun x y => xorBytes x y) h
    (Asks.two (fun x y => x ++ y) (p ((a.setKeyAndMask 0).setKeyAndMask 1)) (p (((a.setKeyAndMask 0).setKeyAndMask 1).setKeyAndMask 2))))
    (fun S => by
      have := xor_length (f S) (Qrl.prf S hf ((a.setKeyAndMask 0).setKeyAndMask 1).toBytes ps ++
        Qrl.prf S hf (((a.setKeyAndMask 0).setKeyAndMask 1).setKeyAndMask 2).toBytes ps)
      rw [List.length_append] at this
      simp only [Qrl.prf, length_coreHash] at this ⊢
      omega)
  exact (e.map (fun x => (x, ((a.setKeyAndMask 0).setKeyAndMask 1).setKeyAndMask 2))).mono (by omega) (by omega)

/-- `hash_f`: 3. -/
theorem Asks.hashF {n b : Nat} {f : Sha256 → Bytes} (hf : HashFn) (ps : Bytes) (hps : ps.length ≤ 64) (a : Adrs) (h : Asks n b f) :
    Asks (n + 3) b (fun S => Qrl.hashF S hf (f S) ps a) := by
  have p : ∀ x : Adrs, Asks 1 0 (fun S => Qrl.prf S hf x.toBytes ps) := fun x =>
    (Asks.prf hf x.toBytes (by rw [adrs_length]; exact Nat.le_refl _) (Asks.const ps) (fun _ => hps)).mono (by omega) (by omega)
  have e := Asks.coreHash hf 0 (p (a.setKeyAndMask 0)) (Asks.two (fun x y => xorBytes x y) h
    (p ((a.setKeyAndMask 0).setKeyAndMask 1)))
    (fun S => by
      have := xor_length (f S) (Qrl.prf S hf ((a.setKeyAndMask 0).setKeyAndMask 1).toBytes ps)
      simp only [Qrl.prf, length_coreHash] at this ⊢
      omega)
  exact (e.map (fun x => (x, (a.setKeyAndMask 0).setKeyAndMask 1))).mono (by omega) (by omega)

/-! ## src/xmss-alt/wots.c -/

theorem Asks.genChain (hf : HashFn) (w : Nat) (ps : Bytes) (hps : ps.length ≤ 64) (steps : Nat) : ∀ (x : Bytes) (i : Nat) (a : Adrs),
    Asks (3 * steps) 0 (fun S => Qrl.genChain S hf w ps x i steps a) := by
  induction steps with
  | zero => intro x i a; exact Asks.const _
  | succ steps ih =>
    intro x i a
    simp only [Qrl.genChain]
    refine Asks.ite _ (fun _ => ?_) (fun _ => (Asks.const _).mono (by omega) (by omega))
    have h := Asks.hashF hf ps hps (a.setHash i) (Asks.const x)
    refine (Asks.seq (g := fun S y => Qrl.genChain S hf w ps y.1 (i + 1) steps y.2) (fun _ => True) h (fun _ => trivial)
      (fun y _ => ih y.1 (i + 1) y.2)).mono (by omega) (by omega)

theorem Asks.expandSeed (hf : HashFn) (k : Nat) : ∀ (sk : Bytes) (_ : sk.length ≤ 64) (i : Nat),
    Asks k 0 (fun S => expandSeedLoop S hf sk i k) := by
  induction k with
  | zero => intro sk _ i; exact Asks.const _
  | succ k ih =>
    intro sk h i
    have e := Asks.two (fun x y => x :: y) (Asks.prf hf (toByte i 32) (by simp) (Asks.const sk) (fun _ => h)) (ih sk h (i + 1))
    exact e.mono (by omega) (by omega)

theorem length_expandSeed (S : Sha256) (hf : HashFn) (sk : Bytes) (k : Nat) : ∀ i, (expandSeedLoop S hf sk i k).length = k := by
  induction k with
  | zero => intro i; rfl
  | succ k ih => intro i; rw [expandSeedLoop, List.length_cons, ih]

theorem Asks.pkgenLoop (hf : HashFn) (p : WotsParams) (ps : Bytes) (hps : ps.length ≤ 64) (xs : List Bytes) : ∀ (i : Nat) (a : Adrs),
    Asks (3 * (p.w - 1) * xs.length) 0 (fun S => Qrl.pkgenLoop S hf p ps i xs a) := by
  induction xs with
  | nil => intro i a; exact (Asks.const _).mono (by simp) (by omega)
  | cons x xs ih =>
    intro i a
    simp only [Qrl.pkgenLoop]
    refine (Asks.seq (g := fun S y => (y.1 :: (Qrl.pkgenLoop S hf p ps (i + 1) xs y.2).1, (Qrl.pkgenLoop S hf p ps (i + 1) xs y.2).2))
      (fun _ => True) (Asks.genChain hf p.w ps hps (p.w - 1) x 0 (a.setChain i)) (fun _ => trivial)
      (fun y _ => (ih (i + 1) y.2).map (fun z => (y.1 :: z.1, z.2)))).mono ?_ (by omega)
    rw [List.length_cons, Nat.mul_succ, Nat.add_comm]
    exact Nat.le_refl _

theorem Asks.wotsPkgen (hf : HashFn) (p : WotsParams) (ps : Bytes) (hps : ps.length ≤ 64) (sk : Bytes) (hsk : sk.length ≤ 64) (a : Adrs) :
    Asks (p.len + 3 * (p.w - 1) * p.len) 0 (fun S => Qrl.wotsPkgen S hf p sk ps a) := by
  have e := Asks.seq (g := fun S xs => Qrl.pkgenLoop S hf p ps 0 xs a) (fun xs => xs.length = p.len) (Asks.expandSeed hf p.len sk hsk 0)
    (fun S => length_expandSeed S hf sk p.len 0)
    (fun xs hx => (Asks.pkgenLoop hf p ps hps xs 0 a).mono (n' := 3 * (p.w - 1) * p.len) (by rw [hx]; exact Nat.le_refl _) (Nat.le_refl _))
  simp only [Qrl.wotsPkgen, Qrl.expandSeed]
  exact e

theorem Asks.wotsSignLoop (hf : HashFn) (p : WotsParams) (ps : Bytes) (hps : ps.length ≤ 64) (B : Nat) (xs : List (Bytes × Nat))
    (hB : ∀ x ∈ xs, x.2 ≤ B) : ∀ (i : Nat) (a : Adrs),
    Asks (3 * B * xs.length) 0 (fun S => Qrl.wotsSignLoop S hf p ps i xs a) := by
  induction xs with
  | nil => intro i a; exact (Asks.const _).mono (by simp) (by omega)
  | cons x xs ih =>
    intro i a
    obtain ⟨x, d⟩ := x
    have hd : d ≤ B := hB (x, d) (List.mem_cons_self ..)
    simp only [Qrl.wotsSignLoop]
    refine (Asks.seq (g := fun S y => (y.1 :: (Qrl.wotsSignLoop S hf p ps (i + 1) xs y.2).1, (Qrl.wotsSignLoop S hf p ps (i + 1) xs y.2).2))
      (fun _ => True) (Asks.genChain hf p.w ps hps d x 0 (a.setChain i)) (fun _ => trivial)
      (fun y _ => (ih (fun x hx => hB x (List.mem_cons_of_mem _ hx)) (i + 1) y.2).map (fun z => (y.1 :: z.1, z.2)))).mono ?_ (by omega)
    rw [List.length_cons, Nat.mul_succ, Nat.add_comm]
    omega

theorem Asks.pkFromSigLoop (hf : HashFn) (p : WotsParams) (ps : Bytes) (hps : ps.length ≤ 64) (xs : List (Bytes × Nat)) :
    ∀ (i : Nat) (a : Adrs), Asks (3 * (p.w - 1) * xs.length) 0 (fun S => Qrl.pkFromSigLoop S hf p ps i xs a) := by
  induction xs with
  | nil => intro i a; exact (Asks.const _).mono (by simp) (by omega)
  | cons x xs ih =>
    intro i a
    obtain ⟨x, d⟩ := x
    simp only [Qrl.pkFromSigLoop]
    refine (Asks.seq (g := fun S y => (y.1 :: (Qrl.pkFromSigLoop S hf p ps (i + 1) xs y.2).1, (Qrl.pkFromSigLoop S hf p ps (i + 1) xs y.2).2))
      (fun _ => True) (Asks.genChain hf p.w ps hps (p.w - 1 - d) x d (a.setChain i)) (fun _ => trivial)
      (fun y _ => (ih (i + 1) y.2).map (fun z => (y.1 :: z.1, z.2)))).mono ?_ (by omega)
    rw [List.length_cons, Nat.mul_succ, Nat.add_comm]
    omega

/-- Every digit is at most `w - 1`. -/
theorem baseWLoop_le (p : WotsParams) (k : Nat) : ∀ inp total bits ds, baseWLoop p inp total bits k = ok ds →
    ds.length = k ∧ ∀ d ∈ ds, d ≤ p.w - 1 := by
  induction k with
  | zero => intro inp total bits ds h; cases h; simp
  | succ k ih =>
    intro inp total bits ds h
    have key : ∀ (inp' : Bytes) (total' bits' : Nat), (if bits' < p.logW then ub else do
        let ds ← baseWLoop p inp' total' (bits' - p.logW) k
        ok ((total' >>> (bits' - p.logW) &&& p.w - 1) :: ds)) = ok ds → ds.length = k + 1 ∧ ∀ d ∈ ds, d ≤ p.w - 1 := by
      intro inp' total' bits' h
      split at h
      · cases h
      · obtain ⟨ds', h1, h2⟩ := bind_eq_ok.mp h
        cases h2
        obtain ⟨a, b⟩ := ih _ _ _ _ h1
        refine ⟨by rw [List.length_cons, a], ?_⟩
        intro d hd
        rcases List.mem_cons.mp hd with rfl | hd
        · exact Nat.and_le_right
        · exact b d hd
    rw [baseWLoop.eq_def] at h
    simp only at h
    split at h
    · cases inp with
      | nil => cases h
      | cons x rest => exact key rest x.toNat (bits + 8) h
    · exact key inp total bits h

theorem signDigits_le (p : WotsParams) (m : Bytes) (ds : List Nat) (h : signDigits p m = ok ds) : ∀ d ∈ ds, d ≤ p.w - 1 := by
  rw [signDigits] at h
  obtain ⟨a, h1, h⟩ := bind_eq_ok.mp h
  obtain ⟨b, h2, h⟩ := bind_eq_ok.mp h
  cases h
  intro d hd
  rcases List.mem_append.mp hd with hd | hd
  · exact (baseWLoop_le p _ _ _ _ _ h1).2 d hd
  · exact (baseWLoop_le p _ _ _ _ _ h2).2 d hd

theorem Asks.wotsSign (hf : HashFn) (p : WotsParams) (ps : Bytes) (hps : ps.length ≤ 64) (m sk : Bytes) (hsk : sk.length ≤ 64) (a : Adrs) :
    Asks (p.len + 3 * (p.w - 1) * p.len) 0 (fun S => Qrl.wotsSign S hf p m sk ps a) := by
  simp only [Qrl.wotsSign]
  refine Asks.bind0 _ ?_
  intro ds hds
  have e := Asks.seq (g := fun S xs => Qrl.wotsSignLoop S hf p ps 0 (xs.zip ds) a) (fun xs => xs.length = p.len)
    (Asks.expandSeed hf p.len sk hsk 0) (fun S => length_expandSeed S hf sk p.len 0)
    (fun xs hx => (Asks.wotsSignLoop hf p ps hps (p.w - 1) (xs.zip ds) (by
      rintro ⟨x, d⟩ hxd
      exact signDigits_le p m ds hds d (List.of_mem_zip hxd).2) 0 a).mono (n' := 3 * (p.w - 1) * p.len) (by
        refine Nat.mul_le_mul_left _ ?_
        rw [List.length_zip]; omega) (Nat.le_refl _))
  simp only [Qrl.expandSeed]
  exact Asks.map ok e

theorem Asks.wotsPkFromSig (hf : HashFn) (p : WotsParams) (ps : Bytes) (hps : ps.length ≤ 64) (sig : List Bytes) (m : Bytes) (a : Adrs) :
    Asks (3 * (p.w - 1) * sig.length) 0 (fun S => Qrl.wotsPkFromSig S hf p sig m ps a) := by
  simp only [Qrl.wotsPkFromSig]
  refine Asks.bind0 _ ?_
  intro ds hds
  refine (Asks.map ok (Asks.pkFromSigLoop hf p ps hps (sig.zip ds) 0 a)).mono ?_ (by omega)
  refine Nat.mul_le_mul_left _ ?_
  rw [List.length_zip]; omega

/-! ## src/xmss-alt/xmss_common.c -/

theorem Asks.lTreeRow (hf : HashFn) (ps : Bytes) (hps : ps.length ≤ 64) (k : Nat) : ∀ (i : Nat) (buf : List Bytes) (a : Adrs),
    Asks (4 * k) 0 (fun S => Qrl.lTreeRow S hf ps k i buf a) := by
  induction k with
  | zero => intro i buf a; exact Asks.const _
  | succ k ih =>
    intro i buf a
    simp only [Qrl.lTreeRow]
    refine Asks.bind0 _ (fun l _ => Asks.bind0 _ (fun r _ => ?_))
    refine (Asks.seq (g := fun S y => wr buf i y.1 >>= fun buf => Qrl.lTreeRow S hf ps k (i + 1) buf y.2) (fun _ => True)
      (Asks.hashH hf ps hps (a.setTreeIndex i) (Asks.const (l ++ r))) (fun _ => trivial)
      (fun y _ => Asks.bind0 _ (fun b _ => ih (i + 1) b y.2))).mono (by omega) (by omega)

theorem Asks.lTreeLoop (hf : HashFn) (ps : Bytes) (hps : ps.length ≤ 64) (l : Nat) : ∀ (h : Nat) (buf : List Bytes) (a : Adrs),
    Asks (4 * (l - 1)) 0 (fun S => Qrl.lTreeLoop S hf ps l h buf a) := by
  induction l using Nat.strongRecOn with
  | ind l ih =>
    intro h buf a
    have e1 : l >>> 1 = l / 2 := Nat.shiftRight_eq_div_pow l 1
    have e2 : l &&& 1 = l % 2 := Nat.and_one_is_mod l
    by_cases hl : l > 1
    · have e : (fun S => Qrl.lTreeLoop S hf ps l h buf a) = fun S => Qrl.lTreeRow S hf ps (l >>> 1) 0 buf a >>= fun y =>
          if l &&& 1 = 1 then rd y.1 (l - 1) >>= fun x => wr y.1 (l >>> 1) x >>= fun b =>
            Qrl.lTreeLoop S hf ps ((l >>> 1) + 1) (h + 1) b (y.2.setTreeHeight (h + 1))
          else Qrl.lTreeLoop S hf ps (l >>> 1) (h + 1) y.1 (y.2.setTreeHeight (h + 1)) := by
        funext S
        rw [Qrl.lTreeLoop, dif_pos hl]
      rw [e]
      refine (Asks.bind (m := 4 * (l - l / 2 - 1)) (c := 0) (Asks.lTreeRow hf ps hps (l >>> 1) 0 buf a) (fun y => ?_)).mono
        (by omega) (by omega)
      refine Asks.ite _ (fun ho => ?_) (fun ho => ?_)
      · exact Asks.bind0 _ (fun x _ => Asks.bind0 _ (fun b _ => (ih _ (by omega) _ b _).mono (by omega) (by omega)))
      · exact (ih _ (by omega) _ y.1 _).mono (by omega) (by omega)
    · have e : (fun S => Qrl.lTreeLoop S hf ps l h buf a) = fun _ => rd buf 0 >>= fun x => ok (x, a) := by
        funext S
        rw [Qrl.lTreeLoop, dif_neg hl]
      rw [e]
      exact (Asks.const _).mono (by omega) (by omega)

theorem Asks.lTree (hf : HashFn) (ps : Bytes) (hps : ps.length ≤ 64) (p : WotsParams) (pk : List Bytes) (a : Adrs) :
    Asks (4 * (p.len - 1)) 0 (fun S => Qrl.lTree S hf p pk ps a) := by
  simp only [Qrl.lTree]
  exact Asks.lTreeLoop hf ps hps p.len 0 pk _

theorem Asks.authPathLoop (hf : HashFn) (ps : Bytes) (hps : ps.length ≤ 64) (sig : Bytes) (m : Nat) :
    ∀ (i leafidx off : Nat) (bl br : Bytes) (a : Adrs),
    Asks (4 * m) 0 (fun S => Qrl.authPathLoop S hf ps sig m i leafidx off bl br a) := by
  induction m with
  | zero => intros; exact Asks.const _
  | succ m ih =>
    intro i leafidx off bl br a
    simp only [Qrl.authPathLoop]
    refine (Asks.seq (g := fun S y => slice sig off 32 >>= fun c =>
        if leafidx >>> 1 &&& 1 = 1 then Qrl.authPathLoop S hf ps sig m (i + 1) (leafidx >>> 1) (off + 32) c y.1 y.2
        else Qrl.authPathLoop S hf ps sig m (i + 1) (leafidx >>> 1) (off + 32) y.1 c y.2) (m := 4 * m) (c := 0) (fun _ => True)
      (Asks.hashH hf ps hps ((a.setTreeHeight i).setTreeIndex (leafidx >>> 1)) (Asks.const (bl ++ br))) (fun _ => trivial)
      (fun y _ => Asks.bind0 _ (fun c _ => Asks.ite _ (fun _ => ih _ _ _ _ _ _) (fun _ => ih _ _ _ _ _ _)))).mono (by omega) (by omega)

theorem Asks.validateAuthpath (hf : HashFn) (ps : Bytes) (hps : ps.length ≤ 64) (leaf : Bytes) (leafidx : Nat) (sig : Bytes)
    (off h : Nat) (a : Adrs) : Asks (4 * (h - 1) + 4) 0 (fun S => Qrl.validateAuthpath S hf leaf leafidx sig off h ps a) := by
  simp only [Qrl.validateAuthpath]
  refine Asks.bind0 _ (fun c _ => ?_)
  refine (Asks.bind (m := 4) (c := 0) (Asks.authPathLoop hf ps hps sig (h - 1) 0 leafidx (off + 32) _ _ a) (fun y => ?_)).mono (Nat.le_refl _) (by omega)
  exact (Asks.map (fun z => ok z.1) (Asks.hashH hf ps hps ((y.2.2.2.setTreeHeight (h - 1)).setTreeIndex (y.1 >>> 1))
    (Asks.const (y.2.1 ++ y.2.2.1)))).mono (by omega) (by omega)

theorem Asks.hMsg (hf : HashFn) (m k : Bytes) : Asks 1 1 (fun S => Qrl.hMsg S hf m k) := by
  have e := Asks.coreHash_big hf 2 (Asks.const k) (Asks.const m)
  simp only [Qrl.hMsg]
  exact e.mono (by omega) (by omega)

theorem length_sliceChunks (sig : Bytes) (k : Nat) : ∀ (off : Nat) (c : List Bytes), sliceChunks sig off k = ok c → c.length = k := by
  induction k with
  | zero => intro off c h; cases h; rfl
  | succ k ih =>
    intro off c h
    obtain ⟨a, _, h⟩ := bind_eq_ok.mp h
    obtain ⟨b, hb, h⟩ := bind_eq_ok.mp h
    cases h
    rw [List.length_cons, ih _ _ hb]

theorem length_of_slice {l : Bytes} {off len : Nat} {x : Bytes} (h : slice l off len = ok x) : x.length = len := by
  rw [slice] at h
  split at h
  · rename_i hl
    cases h
    rw [List.length_take, List.length_drop]; omega
  · cases h

/-- `xmss_Verifysig`: the message once, the chains, the leaf and the path. -/
theorem Asks.xmssVerifysig (hf : HashFn) (p : WotsParams) (msg sig pk : Bytes) (h : Nat) :
    Asks (1 + 3 * (p.w - 1) * p.len + 4 * (p.len - 1) + (4 * (h - 1) + 4)) 1 (fun S => Qrl.xmssVerifysig S hf p msg sig pk h) := by
  simp only [Qrl.xmssVerifysig]
  refine Asks.bind0 _ (fun ps hps => ?_)
  have hl : ps.length ≤ 64 := by rw [length_of_slice hps]; omega
  refine Asks.bind0 _ (fun idx _ => Asks.bind0 _ (fun r _ => Asks.bind0 _ (fun root0 _ => Asks.bind0 _ (fun ws hws => ?_))))
  have hws := length_sliceChunks _ _ _ _ hws
  refine (Asks.seq (g := fun S m => Qrl.wotsPkFromSig S hf p ws m ps ((({} : Adrs).setType 0).setOTS idx) >>= fun y =>
      Qrl.lTree S hf p y.1 ps ((({} : Adrs).setType 1).setLtree idx) >>= fun z =>
      Qrl.validateAuthpath S hf z.1 idx sig (36 + p.keysize) h ps (({} : Adrs).setType 2) >>= fun root =>
      if root ≠ root0 then
        zeroBack 0 (sub64 (sub64 (sub64 ((4 + 32 + p.len * 32 + h * 32) % 2 ^ 32) 36) p.keysize) (h * 32)) msg >>= fun m => ok (-1, m)
      else
        copyBack sig (36 + p.keysize + h * 32) 0
          (sub64 (sub64 (sub64 ((4 + 32 + p.len * 32 + h * 32) % 2 ^ 32) 36) p.keysize) (h * 32)) msg >>= fun m => ok (0, m))
    (m := 3 * (p.w - 1) * p.len + (4 * (p.len - 1) + (4 * (h - 1) + 4))) (c := 0)
    (fun _ => True) (Asks.hMsg hf msg (r ++ root0 ++ toByte idx 32)) (fun _ => trivial) (fun m _ => ?_)).mono (by omega) (by omega)
  refine (Asks.bind (m := 4 * (p.len - 1) + (4 * (h - 1) + 4)) (c := 0) ((Asks.wotsPkFromSig hf p ps hl ws m _).mono
    (n' := 3 * (p.w - 1) * p.len) (by rw [hws]; exact Nat.le_refl _) (Nat.le_refl _)) (fun y => ?_))
  refine (Asks.bind (m := 4 * (h - 1) + 4) (c := 0) (Asks.lTree hf ps hl p y.1 _) (fun z => ?_))
  refine (Asks.bind (m := 0) (c := 0) (Asks.validateAuthpath hf ps hl z.1 idx sig _ h _) (fun root => ?_))
  exact Asks.const _

theorem Asks.catchInvalid {α : Type} {n b : Nat} {f : Sha256 → Outcome α} (a : α) (h : Asks n b f) :
    Asks n b (fun S => Outcome.catchInvalid (f S) a) := Asks.map (fun x => Outcome.catchInvalid x a) h

theorem Asks.withHash {α : Type} {n b : Nat} (k : Nat) {f : Sha256 → HashFn → Outcome α} (h : ∀ hf, Asks n b (fun S => f S hf)) :
    Asks n b (fun S => Qrl.withHash k (f S)) := by
  simp only [Qrl.withHash]
  cases HashFn.ofNat? k with
  | none => exact (Asks.const ub).mono (by omega) (by omega)
  | some hf => exact h hf

/-! ## src/xmss-alt/algsxmss.c -/

/-- The SHA-256 computations of one leaf: the seed of the one-time key, its secrets, its chains and the leaf tree. -/
def leafCost (p : WotsParams) : Nat := 1 + (p.len + 3 * (p.w - 1) * p.len) + 4 * (p.len - 1)

theorem Asks.getSeed (hf : HashFn) (sk : Bytes) (hsk : sk.length ≤ 64) (a : Adrs) : Asks 1 0 (fun S => Qrl.getSeed S hf sk a) := by
  have e := Asks.prf hf (((a.setChain 0).setHash 0).setKeyAndMask 0).toBytes (by rw [adrs_length]; exact Nat.le_refl _)
    (Asks.const sk) (fun _ => hsk)
  simp only [Qrl.getSeed]
  exact (Asks.map (fun x => (x, ((a.setChain 0).setHash 0).setKeyAndMask 0)) e).mono (by omega) (by omega)

theorem length_getSeed (S : Sha256) (hf : HashFn) (sk : Bytes) (a : Adrs) : (Qrl.getSeed S hf sk a).1.length ≤ 64 := by
  simp only [Qrl.getSeed, Qrl.prf, length_coreHash]; omega

theorem Asks.genLeafWots (hf : HashFn) (sk : Bytes) (hsk : sk.length ≤ 64) (p : XmssParams) (ps : Bytes) (hps : ps.length ≤ 64)
    (a b : Adrs) : Asks (leafCost p.wots) 0 (fun S => Qrl.genLeafWots S hf sk p ps a b) := by
  simp only [Qrl.genLeafWots]
  refine (Asks.seq (g := fun S y => (fun z => Qrl.lTree S hf p.wots z.1 ps a >>= fun v => ok (v.1, v.2, z.2))
      (Qrl.wotsPkgen S hf p.wots y.1 ps y.2)) (m := p.wots.len + 3 * (p.wots.w - 1) * p.wots.len + 4 * (p.wots.len - 1)) (c := 0)
    (fun y => y.1.length ≤ 64) (Asks.getSeed hf sk hsk b) (fun S => length_getSeed S hf sk b) (fun y hy => ?_)).mono
    (show _ ≤ 1 + (p.wots.len + 3 * (p.wots.w - 1) * p.wots.len) + 4 * (p.wots.len - 1) by omega) (by omega)
  exact Asks.seq (g := fun S z => Qrl.lTree S hf p.wots z.1 ps a >>= fun v => ok (v.1, v.2, z.2)) (c := 0) (fun _ => True)
    (Asks.wotsPkgen hf p.wots ps hps y.1 hy y.2) (fun _ => trivial)
    (fun z _ => Asks.bind (m := 0) (c := 0) (Asks.lTree hf ps hps p.wots z.1 a) (fun v => Asks.const _))

/-! ## src/xmss-alt/algsxmss_fast.c -/

/-- A merge at stack position `so`, which must lie inside the stack. -/
theorem Asks.updateMerge (hf : HashFn) (ps : Bytes) (hps : ps.length ≤ 64) (stack : List Cell) (levels : List Nat) (nextIdx : Nat)
    (su : Nat) : ∀ (so : Nat) (x : Bytes) (nh : Nat) (a : Adrs),
    Asks (4 * levels.length) 0 (fun S => Qrl.updateMerge S hf ps stack levels nextIdx su so x nh a) := by
  have key : ∀ (su so : Nat) (x : Bytes) (nh : Nat) (a : Adrs), so ≤ levels.length →
      Asks (4 * so) 0 (fun S => Qrl.updateMerge S hf ps stack levels nextIdx su so x nh a) := by
    intro su
    induction su with
    | zero => intro so x nh a _; exact (Asks.const _).mono (by omega) (by omega)
    | succ su ih =>
      intro so x nh a hso
      simp only [Qrl.updateMerge]
      refine Asks.ite _ (fun _ => (Asks.const _).mono (by omega) (by omega)) (fun h0 => ?_)
      refine Asks.bind0 _ (fun l _ => Asks.ite _ (fun _ => ?_) (fun _ => (Asks.const _).mono (by omega) (by omega)))
      refine Asks.bind0 _ (fun left _ => ?_)
      refine (Asks.seq (g := fun S y => Qrl.updateMerge S hf ps stack levels nextIdx su (so - 1) y.1 (nh + 1) y.2)
        (m := 4 * (so - 1)) (c := 0) (fun _ => True)
        (Asks.hashH hf ps hps ((a.setTreeHeight nh).setTreeIndex (nextIdx >>> (nh + 1))) (Asks.const (left ++ x)))
        (fun _ => trivial) (fun y _ => ih (so - 1) y.1 (nh + 1) y.2 (by omega))).mono (by omega) (by omega)
  intro so x nh a
  by_cases hso : so ≤ levels.length
  · exact (key su so x nh a hso).mono (by omega) (by omega)
  · have e : rd levels (so - 1) = ub := by
      rw [rd, List.getElem?_eq_none (by omega)]; rfl
    cases su with
    | zero => exact (Asks.const _).mono (by omega) (by omega)
    | succ su =>
      have e2 : (fun S => Qrl.updateMerge S hf ps stack levels nextIdx (su + 1) so x nh a) = fun _ => ub := by
        funext S
        rw [Qrl.updateMerge, if_neg (by omega), e]; rfl
      rw [e2]
      exact (Asks.const ub).mono (by omega) (by omega)

theorem Asks.treehashUpdate (hf : HashFn) (level : Nat) (st : BdsState) (sk : Bytes) (hsk : sk.length ≤ 64) (p : XmssParams)
    (ps : Bytes) (hps : ps.length ≤ 64) (a : Adrs) :
    Asks (leafCost p.wots + 4 * st.stacklevels.length) 0 (fun S => Qrl.treehashUpdate S hf level st sk p ps a) := by
  simp only [Qrl.treehashUpdate]
  refine Asks.bind0 _ (fun t _ => ?_)
  refine Asks.bind (m := 4 * st.stacklevels.length) (c := 0) (Asks.genLeafWots hf sk hsk p ps hps _ _) (fun y => ?_)
  exact Asks.bind (m := 0) (c := 0) (Asks.updateMerge hf ps hps st.stack st.stacklevels t.nextIdx t.stackusage st.stackoffset y.1 0 _)
    (fun z => Asks.const _)

theorem length_of_wr {α : Type} {l l' : List α} {i : Nat} {x : α} (h : wr l i x = ok l') : l'.length = l.length := by
  rw [wr] at h
  split at h
  · cases h; rw [List.length_set]
  · cases h

theorem levels_treehashUpdate (S : Sha256) (hf : HashFn) (level : Nat) (st : BdsState) (sk : Bytes) (p : XmssParams) (ps : Bytes)
    (a : Adrs) (st' : BdsState) (h : Qrl.treehashUpdate S hf level st sk p ps a = ok st') :
    st'.stacklevels.length = st.stacklevels.length := by
  rw [Qrl.treehashUpdate] at h
  obtain ⟨t, _, h⟩ := bind_eq_ok.mp h
  obtain ⟨y, _, h⟩ := bind_eq_ok.mp h
  obtain ⟨m, _, h⟩ := bind_eq_ok.mp h
  split at h
  · obtain ⟨ths, _, h⟩ := bind_eq_ok.mp h
    cases h; rfl
  · obtain ⟨_, _, h⟩ := bind_eq_ok.mp h
    obtain ⟨lv, hl, h⟩ := bind_eq_ok.mp h
    obtain ⟨_, _, h⟩ := bind_eq_ok.mp h
    cases h
    exact length_of_wr hl

theorem Asks.bdsTreehashUpdate (hf : HashFn) (sk : Bytes) (hsk : sk.length ≤ 64) (p : XmssParams) (ps : Bytes) (hps : ps.length ≤ 64)
    (a : Adrs) (u : Nat) : ∀ st : BdsState,
    Asks (u * (leafCost p.wots + 4 * st.stacklevels.length)) 0 (fun S => Qrl.bdsTreehashUpdate S hf sk p ps a u st) := by
  induction u with
  | zero => intro st; exact (Asks.const _).mono (by omega) (by omega)
  | succ u ih =>
    intro st
    simp only [Qrl.bdsTreehashUpdate]
    refine Asks.bind0 _ (fun l _ => Asks.ite _ (fun _ => (Asks.const _).mono (by omega) (by omega)) (fun _ => ?_))
    refine (Asks.bindP (m := u * (leafCost p.wots + 4 * st.stacklevels.length)) (c := 0)
      (fun st' => st'.stacklevels.length = st.stacklevels.length) (Asks.treehashUpdate hf l st sk hsk p ps hps a)
      (fun S st' h => levels_treehashUpdate S hf l st sk p ps a st' h) (fun st' h => ?_)).mono
        (by rw [Nat.add_mul, Nat.one_mul, Nat.add_comm]; exact Nat.le_refl _) (by omega)
    rw [← h]; exact ih st'

theorem levels_bdsTreehashUpdate (S : Sha256) (hf : HashFn) (sk : Bytes) (p : XmssParams) (ps : Bytes) (a : Adrs) (u : Nat) :
    ∀ (st st' : BdsState), Qrl.bdsTreehashUpdate S hf sk p ps a u st = ok st' → st'.stacklevels.length = st.stacklevels.length := by
  induction u with
  | zero => intro st st' h; cases h; rfl
  | succ u ih =>
    intro st st' h
    rw [Qrl.bdsTreehashUpdate] at h
    obtain ⟨l, _, h⟩ := bind_eq_ok.mp h
    split at h
    · cases h; rfl
    · obtain ⟨st1, h1, h⟩ := bind_eq_ok.mp h
      rw [ih st1 st' h, levels_treehashUpdate S hf l st sk p ps a st1 h1]

theorem levels_roundAuth (p : XmssParams) (li m : Nat) : ∀ (i : Nat) (st st' : BdsState), roundAuth p li m i st = ok st' →
    st'.stacklevels = st.stacklevels := by
  induction m with
  | zero => intro i st st' h; cases h; rfl
  | succ m ih =>
    intro i st st' h
    rw [roundAuth] at h
    split at h
    · obtain ⟨t, _, h⟩ := bind_eq_ok.mp h
      obtain ⟨c, _, h⟩ := bind_eq_ok.mp h
      obtain ⟨au, _, h⟩ := bind_eq_ok.mp h
      exact (ih _ _ _ h).trans rfl
    · obtain ⟨c, _, h⟩ := bind_eq_ok.mp h
      obtain ⟨au, _, h⟩ := bind_eq_ok.mp h
      exact (ih _ _ _ h).trans rfl

theorem levels_roundRestart (p : XmssParams) (li m : Nat) : ∀ (i : Nat) (st st' : BdsState), roundRestart p li m i st = ok st' →
    st'.stacklevels = st.stacklevels := by
  induction m with
  | zero => intro i st st' h; cases h; rfl
  | succ m ih =>
    intro i st st' h
    rw [roundRestart] at h
    split at h
    · obtain ⟨c, _, h⟩ := bind_eq_ok.mp h
      obtain ⟨au, _, h⟩ := bind_eq_ok.mp h
      exact (ih _ _ _ h).trans rfl
    · exact (ih _ _ _ h).trans rfl

/-- The end of `bds_round`, after the reads. -/
def roundTail (S : Sha256) (hf : HashFn) (li : Nat) (sk : Bytes) (p : XmssParams) (ps : Bytes) (a : Adrs) (buf : Cell × Cell)
    (st : BdsState) : Outcome BdsState :=
  if findTau li p.h p.h 0 = 0 then
    Qrl.genLeafWots S hf sk p ps ((a.derive 1).setLtree li) ((a.derive 0).setOTS li) >>= fun y =>
      wr st.auth 0 (some y.1) >>= fun auth => ok { st with auth := auth }
  else
    ofOption buf.1 >>= fun l => ofOption buf.2 >>= fun r =>
      wr st.auth (findTau li p.h p.h 0) (some (Qrl.hashH S hf (l ++ r) ps
        (((a.derive 2).setTreeHeight (findTau li p.h p.h 0 - 1)).setTreeIndex (li >>> findTau li p.h p.h 0))).1) >>= fun auth =>
      roundAuth p li (findTau li p.h p.h 0) 0 { st with auth := auth } >>= fun st2 =>
        roundRestart p li (if findTau li p.h p.h 0 < p.h - 2 then findTau li p.h p.h 0 else p.h - 2) 0 st2

theorem bdsRound_nf (S : Sha256) (hf : HashFn) (st : BdsState) (li : Nat) (sk : Bytes) (p : XmssParams)
    (ps : Bytes) (a : Adrs) : Qrl.bdsRound S hf st li sk p ps a =
      ((if findTau li p.h p.h 0 > 0 then rd st.auth (findTau li p.h p.h 0 - 1) >>= fun a =>
        rd st.keep ((findTau li p.h p.h 0 - 1) >>> 1) >>= fun b => ok (a, b) else ok (none, none)) >>= fun buf =>
      (if (li >>> (findTau li p.h p.h 0 + 1)) &&& 1 = 0 ∧ findTau li p.h p.h 0 < p.h - 1 then rd st.auth (findTau li p.h p.h 0) >>= fun a =>
        wr st.keep (findTau li p.h p.h 0 >>> 1) a >>= fun keep => ok { st with keep := keep } else ok st) >>= fun st =>
      roundTail S hf li sk p ps a buf st) := by
  rw [Qrl.bdsRound]
  simp only [roundTail]
  generalize findTau li p.h p.h 0 = tau
  generalize li >>> (tau + 1) &&& 1 = bit
  by_cases h1 : tau > 0 <;> by_cases h2 : bit = 0 ∧ tau < p.h - 1
  · simp only [if_pos h1, if_pos h2]
    cases rd st.auth (tau - 1) with
    | ok x =>
      simp only [ok_bind]
      cases rd st.keep ((tau - 1) >>> 1) with
      | ok y =>
        simp only [ok_bind]
        cases rd st.auth tau with
        | ok z =>
          simp only [ok_bind]
          cases wr st.keep (tau >>> 1) z <;> rfl
        | throw e => rfl
        | ub => rfl
      | throw e => rfl
      | ub => rfl
    | throw e => rfl
    | ub => rfl
  · simp only [if_pos h1, if_neg h2]
    cases rd st.auth (tau - 1) with
    | ok x =>
      simp only [ok_bind]
      cases rd st.keep ((tau - 1) >>> 1) <;> rfl
    | throw e => rfl
    | ub => rfl
  · simp only [if_neg h1, if_pos h2, ok_bind]
    cases rd st.auth tau with
    | ok z =>
      simp only [ok_bind]
      cases wr st.keep (tau >>> 1) z <;> rfl
    | throw e => rfl
    | ub => rfl
  · simp only [if_neg h1, if_neg h2, ok_bind]

theorem Asks.bdsRound (hf : HashFn) (st : BdsState) (li : Nat) (sk : Bytes) (hsk : sk.length ≤ 64) (p : XmssParams)
    (ps : Bytes) (hps : ps.length ≤ 64) (a : Adrs) :
    Asks (leafCost p.wots + 4) 0 (fun S => Qrl.bdsRound S hf st li sk p ps a) := by
  simp only [bdsRound_nf]
  refine Asks.bind0 _ (fun buf _ => Asks.bind0 _ (fun st1 _ => ?_))
  simp only [roundTail]
  refine Asks.ite (n := leafCost p.wots + 4) (b := 0) _ (fun _ => ?_) (fun _ => ?_)
  · have e := Asks.bind (g := fun _ y => wr st1.auth 0 (some y.1) >>= fun auth => ok { st1 with auth := auth }) (m := 0) (c := 0)
      (Asks.genLeafWots hf sk hsk p ps hps ((a.derive 1).setLtree li) ((a.derive 0).setOTS li)) (fun y => Asks.const _)
    exact e.mono (by omega) (by omega)
  · refine Asks.bind0 _ (fun l _ => Asks.bind0 _ (fun r _ => ?_))
    exact (Asks.map (fun y => wr st1.auth (findTau li p.h p.h 0) (some y.1) >>= fun auth =>
      roundAuth p li (findTau li p.h p.h 0) 0 { st1 with auth := auth } >>= fun st2 =>
        roundRestart p li (if findTau li p.h p.h 0 < p.h - 2 then findTau li p.h p.h 0 else p.h - 2) 0 st2)
      (Asks.hashH hf ps hps (((a.derive 2).setTreeHeight (findTau li p.h p.h 0 - 1)).setTreeIndex (li >>> findTau li p.h p.h 0))
        (Asks.const (l ++ r)))).mono (by omega) (by omega)

theorem levels_bdsRound (S : Sha256) (hf : HashFn) (st : BdsState) (li : Nat) (sk : Bytes) (p : XmssParams)
    (ps : Bytes) (a : Adrs) (st' : BdsState) (h : Qrl.bdsRound S hf st li sk p ps a = ok st') :
    st'.stacklevels = st.stacklevels := by
  rw [bdsRound_nf] at h
  obtain ⟨buf, _, h⟩ := bind_eq_ok.mp h
  obtain ⟨st1, h1, h⟩ := bind_eq_ok.mp h
  have e1 : st1.stacklevels = st.stacklevels := by
    split at h1
    · obtain ⟨_, _, h1⟩ := bind_eq_ok.mp h1
      obtain ⟨_, _, h1⟩ := bind_eq_ok.mp h1
      cases h1; rfl
    · cases h1; rfl
  rw [roundTail] at h
  split at h
  · obtain ⟨_, _, h⟩ := bind_eq_ok.mp h
    obtain ⟨_, _, h⟩ := bind_eq_ok.mp h
    cases h; exact e1
  · obtain ⟨_, _, h⟩ := bind_eq_ok.mp h
    obtain ⟨_, _, h⟩ := bind_eq_ok.mp h
    obtain ⟨_, _, h⟩ := bind_eq_ok.mp h
    obtain ⟨st2, h2, h⟩ := bind_eq_ok.mp h
    rw [levels_roundRestart _ _ _ _ _ _ h, levels_roundAuth _ _ _ _ _ _ h2]
    exact e1

/-- One step of the traversal: a leaf or a node, and `(h - 2) / 2` tree-hash updates. -/
def roundCost (p : XmssParams) (levels : Nat) : Nat := leafCost p.wots + 4 + ((p.h - 2) >>> 1) * (leafCost p.wots + 4 * levels)

theorem Asks.round (hf : HashFn) (st : BdsState) (li : Nat) (sk : Bytes) (hsk : sk.length ≤ 64) (p : XmssParams)
    (ps : Bytes) (hps : ps.length ≤ 64) (a : Adrs) :
    Asks (roundCost p st.stacklevels.length) 0 (fun S => Qrl.bdsRound S hf st li sk p ps a >>= fun st =>
      Qrl.bdsTreehashUpdate S hf sk p ps a ((p.h - 2) >>> 1) st) := by
  refine Asks.bindP (c := 0) (fun st' => st'.stacklevels = st.stacklevels) (Asks.bdsRound hf st li sk hsk p ps hps a)
    (fun S st' h => levels_bdsRound S hf st li sk p ps a st' h) (fun st' h => ?_)
  rw [← h]; exact Asks.bdsTreehashUpdate hf sk hsk p ps hps a _ st'

theorem Asks.advanceLoop (hf : HashFn) (sk : Bytes) (hsk : sk.length ≤ 64) (p : XmssParams) (ps : Bytes) (hps : ps.length ≤ 64)
    (m : Nat) : ∀ (j : Nat) (st : BdsState),
    Asks (m * roundCost p st.stacklevels.length) 0 (fun S => Qrl.advanceLoop S hf sk p ps m j st) := by
  induction m with
  | zero => intro j st; exact (Asks.const _).mono (by omega) (by omega)
  | succ m ih =>
    intro j st
    have e : (fun S => Qrl.advanceLoop S hf sk p ps (m + 1) j st) = fun S => (Qrl.bdsRound S hf st j sk p ps {} >>= fun st =>
        Qrl.bdsTreehashUpdate S hf sk p ps {} ((p.h - 2) >>> 1) st) >>= fun st => Qrl.advanceLoop S hf sk p ps m (j + 1) st := by
      funext S
      rw [Qrl.advanceLoop]
      cases Qrl.bdsRound S hf st j sk p ps {} <;> rfl
    rw [e]
    refine (Asks.bindP (m := m * roundCost p st.stacklevels.length) (c := 0) (fun st' => st'.stacklevels.length = st.stacklevels.length)
      (Asks.round hf st j sk hsk p ps hps {}) (fun S st' h => ?_) (fun st' h => ?_)).mono (by rw [Nat.succ_mul]; omega) (by omega)
    · obtain ⟨st1, h1, h⟩ := bind_eq_ok.mp h
      rw [levels_bdsTreehashUpdate _ _ _ _ _ _ _ _ _ h, levels_bdsRound _ _ _ _ _ _ _ _ _ h1]
    · rw [← h]; exact ih (j + 1) st'

theorem Asks.xmssfastSignmsg (hf : HashFn) (p : XmssParams) (sk : Bytes) (st : BdsState) (msg : Bytes) :
    Asks (3 + (p.wots.len + 3 * (p.wots.w - 1) * p.wots.len) + roundCost p st.stacklevels.length) 1
      (fun S => Qrl.xmssfastSignmsg S hf p sk st msg) := by
  simp only [Qrl.xmssfastSignmsg]
  refine Asks.bind0 _ (fun idx _ => Asks.bind0 _ (fun skSeed h1 => Asks.bind0 _ (fun skPrf h2 => Asks.bind0 _ (fun ps h3 => ?_))))
  have h1 : skSeed.length ≤ 64 := by rw [length_of_slice h1]; omega
  have h2 : skPrf.length ≤ 64 := by rw [length_of_slice h2]; omega
  have h3 : ps.length ≤ 64 := by rw [length_of_slice h3]; omega
  refine Asks.bind0 _ (fun root _ => ?_)
  refine (Asks.seq (g := fun S r => (fun msgH => (fun (os : Bytes × Adrs) =>
      Qrl.wotsSign S hf p.wots msgH os.1 ps os.2 >>= fun ws => authOut st.auth p.h 0 >>= fun path =>
      if idx < 2 ^ p.h - 1 then Qrl.bdsRound S hf st idx skSeed p ps ws.2 >>= fun st =>
        Qrl.bdsTreehashUpdate S hf skSeed p ps ws.2 ((p.h - 2) >>> 1) st >>= fun st =>
        ok (idxBytes idx ++ r ++ ws.1.flatten ++ path.flatten, (idxBytes (idx + 1) ++ sk.drop 4, st)) else ok st >>= fun st =>
        ok (idxBytes idx ++ r ++ ws.1.flatten ++ path.flatten, (idxBytes (idx + 1) ++ sk.drop 4, st)))
      (Qrl.getSeed S hf skSeed ((({} : Adrs).setType 0).setOTS idx))) (Qrl.hMsg S hf msg (r ++ root ++ toByte idx 32)))
    (m := 2 + (p.wots.len + 3 * (p.wots.w - 1) * p.wots.len) + roundCost p st.stacklevels.length) (c := 1) (fun _ => True)
    (Asks.prf hf (toByte idx 32) (by simp) (Asks.const skPrf) (fun _ => h2)) (fun _ => trivial) (fun r _ => ?_)).mono
    (by omega) (by omega)
  refine (Asks.seq (g := fun S msgH => (fun (os : Bytes × Adrs) =>
      Qrl.wotsSign S hf p.wots msgH os.1 ps os.2 >>= fun ws => authOut st.auth p.h 0 >>= fun path =>
      if idx < 2 ^ p.h - 1 then Qrl.bdsRound S hf st idx skSeed p ps ws.2 >>= fun st =>
        Qrl.bdsTreehashUpdate S hf skSeed p ps ws.2 ((p.h - 2) >>> 1) st >>= fun st =>
        ok (idxBytes idx ++ r ++ ws.1.flatten ++ path.flatten, (idxBytes (idx + 1) ++ sk.drop 4, st)) else ok st >>= fun st =>
        ok (idxBytes idx ++ r ++ ws.1.flatten ++ path.flatten, (idxBytes (idx + 1) ++ sk.drop 4, st)))
      (Qrl.getSeed S hf skSeed ((({} : Adrs).setType 0).setOTS idx)))
    (m := 1 + (p.wots.len + 3 * (p.wots.w - 1) * p.wots.len) + roundCost p st.stacklevels.length) (c := 0) (fun _ => True)
    (Asks.hMsg hf msg (r ++ root ++ toByte idx 32)) (fun _ => trivial) (fun mh _ => ?_)).mono (by omega) (by omega)
  refine (Asks.seq (g := fun S (os : Bytes × Adrs) => Qrl.wotsSign S hf p.wots mh os.1 ps os.2 >>= fun ws => authOut st.auth p.h 0 >>= fun path =>
      if idx < 2 ^ p.h - 1 then Qrl.bdsRound S hf st idx skSeed p ps ws.2 >>= fun st =>
        Qrl.bdsTreehashUpdate S hf skSeed p ps ws.2 ((p.h - 2) >>> 1) st >>= fun st =>
        ok (idxBytes idx ++ r ++ ws.1.flatten ++ path.flatten, (idxBytes (idx + 1) ++ sk.drop 4, st)) else ok st >>= fun st =>
        ok (idxBytes idx ++ r ++ ws.1.flatten ++ path.flatten, (idxBytes (idx + 1) ++ sk.drop 4, st)))
    (m := p.wots.len + 3 * (p.wots.w - 1) * p.wots.len + roundCost p st.stacklevels.length) (c := 0)
    (fun y => y.1.length ≤ 64) (Asks.getSeed hf skSeed h1 ((({} : Adrs).setType 0).setOTS idx)) (fun S => length_getSeed S hf _ _)
    (fun os hos => ?_)).mono
    (by omega) (by omega)
  refine Asks.bind (c := 0) (Asks.wotsSign hf p.wots ps h3 mh os.1 hos os.2) (fun ws => Asks.bind0 _ (fun path _ => ?_))
  refine Asks.ite _ (fun _ => ?_) (fun _ => (Asks.const _).mono (by omega) (by omega))
  have e : ∀ S, (Qrl.bdsRound S hf st idx skSeed p ps ws.2 >>= fun st => Qrl.bdsTreehashUpdate S hf skSeed p ps ws.2 ((p.h - 2) >>> 1) st >>=
      fun st => ok (idxBytes idx ++ r ++ ws.1.flatten ++ path.flatten, (idxBytes (idx + 1) ++ sk.drop 4, st))) =
      ((Qrl.bdsRound S hf st idx skSeed p ps ws.2 >>= fun st => Qrl.bdsTreehashUpdate S hf skSeed p ps ws.2 ((p.h - 2) >>> 1) st) >>=
      fun st => ok (idxBytes idx ++ r ++ ws.1.flatten ++ path.flatten, (idxBytes (idx + 1) ++ sk.drop 4, st))) := by
    intro S
    cases Qrl.bdsRound S hf st idx skSeed p ps ws.2 <;> rfl
  simp only [e]
  exact Asks.bind (g := fun _ st' => ok (idxBytes idx ++ r ++ ws.1.flatten ++ path.flatten, (idxBytes (idx + 1) ++ sk.drop 4, st')))
    (m := 0) (c := 0) (Asks.round hf st idx skSeed h1 p ps h3 ws.2) (fun st' => Asks.const _)

theorem Asks.stepOfOutcome {σ α : Type} {n b : Nat} (s : σ) {f : Sha256 → Outcome (α × σ)} (h : Asks n b f) :
    Asks n b (fun S => Step.ofOutcome s (f S)) := Asks.map (fun x => Step.ofOutcome s x) h

theorem Asks.xmssfastUpdate (hf : HashFn) (p : XmssParams) (s : Bytes × BdsState) (newIdx cur : Nat) (hc : be32At s.1 = ok cur) :
    Asks ((newIdx - cur) * roundCost p s.2.stacklevels.length) 0 (fun S => Qrl.xmssfastUpdate S hf p s newIdx) := by
  simp only [Qrl.xmssfastUpdate, hc]
  refine Asks.ite _ (fun _ => (Asks.const _).mono (by omega) (by omega)) (fun _ => ?_)
  refine Asks.ite _ (fun _ => (Asks.const _).mono (by omega) (by omega)) (fun _ => ?_)
  refine Asks.ite _ (fun _ => (Asks.const _).mono (by omega) (by omega)) (fun _ => ?_)
  refine Asks.stepOfOutcome s (Asks.bind0 _ (fun a ha => Asks.bind0 _ (fun b hb => ?_)))
  exact (Asks.bind (m := 0) (c := 0) (Asks.advanceLoop hf a (by rw [length_of_slice ha]; omega) p b (by rw [length_of_slice hb]; omega)
    (newIdx - cur) cur s.2) (fun st => Asks.const _))

/-! ## Building the tree -/

/-- A merge loop followed by anything whose cost may depend on how far the stack was reduced. -/
theorem Asks.setupMerge {β : Type} (hf : HashFn) (p : XmssParams) (ps : Bytes) (hps : ps.length ≤ 64) (idx i N : Nat)
    (k : Sha256 → THStack × BdsState × Adrs → Outcome β)
    (hk : ∀ (th : THStack) st a, Asks (N + 4 * th.offset) 0 (fun S => k S (th, st, a))) (so : Nat) :
    ∀ (nodes : List Cell) (levels : List (Option Nat)) (st : BdsState) (a : Adrs),
    Asks (N + 4 * so) 0 (fun S => Qrl.setupMerge S hf p ps idx i so nodes levels st a >>= k S) := by
  induction so using Nat.strongRecOn with
  | ind so ih =>
    intro nodes levels st a
    match so, ih with
    | 0, _ => simp only [Qrl.setupMerge, ok_bind]; exact hk { nodes := nodes, levels := levels, offset := 0 } st a
    | 1, _ => simp only [Qrl.setupMerge, ok_bind]; exact hk { nodes := nodes, levels := levels, offset := 1 } st a
    | so + 2, ih =>
      have e : (fun S => Qrl.setupMerge S hf p ps idx i (so + 2) nodes levels st a >>= k S) = fun S =>
          rdUse levels (so + 1) >>= fun x => rdUse levels so >>= fun y =>
          if x = y then rd nodes (so + 1) >>= fun top => setupSave p i x top st >>= fun st => rdUse nodes so >>= fun l =>
            rdUse nodes (so + 1) >>= fun r => (fun (z : Bytes × Adrs) => wr nodes so (some z.1) >>= fun nodes =>
              wr levels so (some (y + 1)) >>= fun levels => Qrl.setupMerge S hf p ps idx i (so + 1) nodes levels st z.2 >>= k S)
              (Qrl.hashH S hf (l ++ r) ps ((a.setTreeHeight x).setTreeIndex (idx >>> (x + 1))))
          else k S ({ nodes := nodes, levels := levels, offset := so + 2 }, st, a) := by
        funext S
        rw [Qrl.setupMerge]
        cases rdUse levels (so + 1) with
        | throw e => rfl
        | ub => rfl
        | ok x =>
          cases rdUse levels so with
          | throw e => rfl
          | ub => rfl
          | ok y =>
            simp only [ok_bind]
            by_cases hxy : x = y
            · rw [if_pos hxy, if_pos hxy]
              cases rd nodes (so + 1) with
              | throw e => rfl
              | ub => rfl
              | ok top =>
                simp only [ok_bind]
                cases setupSave p i x top st with
                | throw e => rfl
                | ub => rfl
                | ok st =>
                  simp only [ok_bind]
                  cases rdUse nodes so with
                  | throw e => rfl
                  | ub => rfl
                  | ok l =>
                    simp only [ok_bind]
                    cases rdUse nodes (so + 1) with
                    | throw e => rfl
                    | ub => rfl
                    | ok r =>
                      simp only [ok_bind]
                      generalize Qrl.hashH S hf (l ++ r) ps _ = z
                      cases wr nodes so (some z.1) with
                      | throw e => rfl
                      | ub => rfl
                      | ok nodes =>
                        simp only [ok_bind]
                        cases wr levels so (some (y + 1)) <;> rfl
            · rw [if_neg hxy, if_neg hxy]; rfl
      rw [e]
      refine Asks.bind0 _ (fun x _ => Asks.bind0 _ (fun y _ => Asks.ite _ (fun _ => ?_)
        (fun _ => hk { nodes := nodes, levels := levels, offset := so + 2 } st a)))
      refine Asks.bind0 _ (fun top _ => Asks.bind0 _ (fun st _ => Asks.bind0 _ (fun l _ => Asks.bind0 _ (fun r _ => ?_))))
      have e2 := Asks.seq (g := fun S (z : Bytes × Adrs) => wr nodes so (some z.1) >>= fun nodes =>
        wr levels so (some (y + 1)) >>= fun levels => Qrl.setupMerge S hf p ps idx i (so + 1) nodes levels st z.2 >>= k S)
        (m := N + 4 * (so + 1)) (c := 0) (fun _ => True)
        (Asks.hashH hf ps hps ((a.setTreeHeight x).setTreeIndex (idx >>> (x + 1))) (Asks.const (l ++ r))) (fun _ => trivial)
        (fun z _ => Asks.bind0 _ (fun nodes _ => Asks.bind0 _ (fun levels _ => ih (so + 1) (by omega) nodes levels st z.2)))
      exact e2.mono (by omega) (by omega)

theorem Asks.setupLoop (hf : HashFn) (sk : Bytes) (hsk : sk.length ≤ 64) (p : XmssParams) (ps : Bytes) (hps : ps.length ≤ 64)
    (m : Nat) : ∀ (idx i : Nat) (th : THStack) (st : BdsState) (a b c : Adrs),
    Asks (m * (leafCost p.wots + 4) + 4 * th.offset) 0 (fun S => Qrl.setupLoop S hf sk p ps m idx i th st a b c) := by
  induction m with
  | zero => intro idx i th st a b c; exact (Asks.const _).mono (by omega) (by omega)
  | succ m ih =>
    intro idx i th st a b c
    have e : (fun S => Qrl.setupLoop S hf sk p ps (m + 1) idx i th st a b c) = fun S =>
        Qrl.genLeafWots S hf sk p ps (b.setLtree idx) (a.setOTS idx) >>= fun y =>
        wr th.nodes th.offset (some y.1) >>= fun nodes => wr th.levels th.offset (some 0) >>= fun levels =>
        (if p.h - 2 > 0 ∧ i = 3 then rd nodes (th.offset + 1) >>= fun c => setThNode st 0 c else ok st) >>= fun st =>
        Qrl.setupMerge S hf p ps idx i (th.offset + 1) nodes levels st c >>= fun z =>
        Qrl.setupLoop S hf sk p ps m (idx + 1) (i + 1) z.1 z.2.1 y.2.2 y.2.1 z.2.2 := by
      funext S
      rw [Qrl.setupLoop]
      cases Qrl.genLeafWots S hf sk p ps (b.setLtree idx) (a.setOTS idx) with
      | throw e => rfl
      | ub => rfl
      | ok y =>
        simp only [ok_bind]
        cases wr th.nodes th.offset (some y.1) with
        | throw e => rfl
        | ub => rfl
        | ok nodes =>
          simp only [ok_bind]
          cases wr th.levels th.offset (some 0) with
          | throw e => rfl
          | ub => rfl
          | ok levels =>
            simp only [ok_bind]
            by_cases hi : p.h - 2 > 0 ∧ i = 3
            · rw [if_pos hi, if_pos hi]
              cases rd nodes (th.offset + 1) <;> rfl
            · rw [if_neg hi, if_neg hi]; rfl
    rw [e]
    refine (Asks.bind (m := m * (leafCost p.wots + 4) + 4 * (th.offset + 1)) (c := 0) (Asks.genLeafWots hf sk hsk p ps hps _ _)
      (fun y => Asks.bind0 _ (fun nodes _ => Asks.bind0 _ (fun levels _ => Asks.bind0 _ (fun st _ => ?_))))).mono
      (by rw [Nat.add_mul m 1, Nat.one_mul]; omega) (by omega)
    exact Asks.setupMerge hf p ps hps idx i (m * (leafCost p.wots + 4))
      (fun S z => Qrl.setupLoop S hf sk p ps m (idx + 1) (i + 1) z.1 z.2.1 y.2.2 y.2.1 z.2.2)
      (fun th st a => ih (idx + 1) (i + 1) th st y.2.2 y.2.1 a) (th.offset + 1) nodes levels st c

theorem Asks.treehashSetup (hf : HashFn) (h idx : Nat) (st : BdsState) (sk : Bytes) (hsk : sk.length ≤ 64) (p : XmssParams) (ps : Bytes)
    (hps : ps.length ≤ 64) (a : Adrs) :
    Asks (2 ^ h * (leafCost p.wots + 4)) 0 (fun S => Qrl.treehashSetup S hf h idx st sk p ps a) := by
  simp only [Qrl.treehashSetup]
  refine Asks.ite _ (fun _ => (Asks.const _).mono (by omega) (by omega)) (fun _ => Asks.bind0 _ (fun ths _ => ?_))
  have e := Asks.setupLoop hf sk hsk p ps hps (2 ^ h) idx 0
    { nodes := List.replicate (h + 1) none, levels := List.replicate (h + 1) none, offset := 0 } { st with treehash := ths }
    (a.derive 0) (a.derive 1) (a.derive 2)
  exact Asks.bind (g := fun _ y => rdUse y.1.nodes 0 >>= fun root => ok (root, y.2)) (m := 0) (c := 0) e (fun y => Asks.const _)

theorem Asks.xmssfastGenkeypair (hf : HashFn) (p : XmssParams) (sk : Bytes) (st : BdsState) (seed : Bytes) :
    Asks (2 ^ p.h * (leafCost p.wots + 4)) 0 (fun S => Qrl.xmssfastGenkeypair S hf p sk st seed) := by
  simp only [Qrl.xmssfastGenkeypair]
  refine Asks.ite _ (fun _ => (Asks.const _).mono (by omega) (by omega)) (fun _ => Asks.bind0 _ (fun s48 _ => ?_))
  have hl := length_shake256 96 s48
  generalize shake256 96 s48 = rb at hl ⊢
  have e := Asks.treehashSetup hf p.h 0 st (rb.take 32) (by rw [List.length_take]; omega) p (rb.drop 64)
    (by rw [List.length_drop]; omega) {}
  exact Asks.bind (g := fun _ y => ok (idxBytes 0 ++ rb ++ y.1, y.2)) (m := 0) (c := 0) e (fun y => Asks.const _)

theorem Asks.treehashMerge {β : Type} (hf : HashFn) (ps : Bytes) (hps : ps.length ≤ 64) (idx N : Nat)
    (k : Sha256 → THStack × Adrs → Outcome β)
    (hk : ∀ (th : THStack) a, Asks (N + 4 * th.offset) 0 (fun S => k S (th, a))) (so : Nat) :
    ∀ (nodes : List Cell) (levels : List (Option Nat)) (a : Adrs),
    Asks (N + 4 * so) 0 (fun S => Qrl.treehashMerge S hf ps idx so nodes levels a >>= k S) := by
  induction so using Nat.strongRecOn with
  | ind so ih =>
    intro nodes levels a
    match so, ih with
    | 0, _ => simp only [Qrl.treehashMerge, ok_bind]; exact hk { nodes := nodes, levels := levels, offset := 0 } a
    | 1, _ => simp only [Qrl.treehashMerge, ok_bind]; exact hk { nodes := nodes, levels := levels, offset := 1 } a
    | so + 2, ih =>
      have e : (fun S => Qrl.treehashMerge S hf ps idx (so + 2) nodes levels a >>= k S) = fun S =>
          rdUse levels (so + 1) >>= fun x => rdUse levels so >>= fun y =>
          if x = y then rdUse nodes so >>= fun l =>
            rdUse nodes (so + 1) >>= fun r => (fun (z : Bytes × Adrs) => wr nodes so (some z.1) >>= fun nodes =>
              wr levels so (some (y + 1)) >>= fun levels => Qrl.treehashMerge S hf ps idx (so + 1) nodes levels z.2 >>= k S)
              (Qrl.hashH S hf (l ++ r) ps ((a.setTreeHeight x).setTreeIndex (idx >>> (x + 1))))
          else k S ({ nodes := nodes, levels := levels, offset := so + 2 }, a) := by
        funext S
        rw [Qrl.treehashMerge]
        cases rdUse levels (so + 1) with
        | throw e => rfl
        | ub => rfl
        | ok x =>
          cases rdUse levels so with
          | throw e => rfl
          | ub => rfl
          | ok y =>
            simp only [ok_bind]
            by_cases hxy : x = y
            · rw [if_pos hxy, if_pos hxy]
              cases rdUse nodes so with
              | throw e => rfl
              | ub => rfl
              | ok l =>
                simp only [ok_bind]
                cases rdUse nodes (so + 1) with
                | throw e => rfl
                | ub => rfl
                | ok r =>
                  simp only [ok_bind]
                  generalize Qrl.hashH S hf (l ++ r) ps _ = z
                  cases wr nodes so (some z.1) with
                  | throw e => rfl
                  | ub => rfl
                  | ok nodes =>
                    simp only [ok_bind]
                    cases wr levels so (some (y + 1)) <;> rfl
            · rw [if_neg hxy, if_neg hxy]; rfl
      rw [e]
      refine Asks.bind0 _ (fun x _ => Asks.bind0 _ (fun y _ => Asks.ite _ (fun _ => ?_)
        (fun _ => hk { nodes := nodes, levels := levels, offset := so + 2 } a)))
      refine Asks.bind0 _ (fun l _ => Asks.bind0 _ (fun r _ => ?_))
      have e2 := Asks.seq (g := fun S (z : Bytes × Adrs) => wr nodes so (some z.1) >>= fun nodes =>
        wr levels so (some (y + 1)) >>= fun levels => Qrl.treehashMerge S hf ps idx (so + 1) nodes levels z.2 >>= k S)
        (m := N + 4 * (so + 1)) (c := 0) (fun _ => True)
        (Asks.hashH hf ps hps ((a.setTreeHeight x).setTreeIndex (idx >>> (x + 1))) (Asks.const (l ++ r))) (fun _ => trivial)
        (fun z _ => Asks.bind0 _ (fun nodes _ => Asks.bind0 _ (fun levels _ => ih (so + 1) (by omega) nodes levels z.2)))
      exact e2.mono (by omega) (by omega)

theorem Asks.treehashLoop (hf : HashFn) (sk : Bytes) (hsk : sk.length ≤ 64) (p : XmssParams) (ps : Bytes) (hps : ps.length ≤ 64)
    (m : Nat) : ∀ (idx : Nat) (th : THStack) (a b c : Adrs),
    Asks (m * (leafCost p.wots + 4) + 4 * th.offset) 0 (fun S => Qrl.treehashLoop S hf sk p ps m idx th a b c) := by
  induction m with
  | zero => intro idx th a b c; exact (Asks.const _).mono (by omega) (by omega)
  | succ m ih =>
    intro idx th a b c
    simp only [Qrl.treehashLoop]
    refine (Asks.bind (m := m * (leafCost p.wots + 4) + 4 * (th.offset + 1)) (c := 0) (Asks.genLeafWots hf sk hsk p ps hps _ _)
      (fun y => Asks.bind0 _ (fun nodes _ => Asks.bind0 _ (fun levels _ => ?_)))).mono
      (by rw [Nat.add_mul m 1, Nat.one_mul]; omega) (by omega)
    exact Asks.treehashMerge hf ps hps idx (m * (leafCost p.wots + 4))
      (fun S z => Qrl.treehashLoop S hf sk p ps m (idx + 1) z.1 y.2.2 y.2.1 z.2)
      (fun th a => ih (idx + 1) th y.2.2 y.2.1 a) (th.offset + 1) nodes levels c

theorem Asks.treehash (hf : HashFn) (h idx : Nat) (sk : Bytes) (hsk : sk.length ≤ 64) (p : XmssParams) (ps : Bytes)
    (hps : ps.length ≤ 64) (a : Adrs) : Asks (2 ^ h * (leafCost p.wots + 4)) 0 (fun S => Qrl.treehash S hf h idx sk p ps a) := by
  simp only [Qrl.treehash]
  refine Asks.ite _ (fun _ => (Asks.const _).mono (by omega) (by omega)) (fun _ => ?_)
  have e := Asks.treehashLoop hf sk hsk p ps hps (2 ^ h) idx
    { nodes := List.replicate (h + 1) none, levels := List.replicate (h + 1) none, offset := 0 } (a.derive 0) (a.derive 1) (a.derive 2)
  exact Asks.bind (g := fun _ y => rdUse y.nodes 0) (m := 0) (c := 0) e (fun y => Asks.const _)

theorem Asks.xmssGenkeypair (hf : HashFn) (p : XmssParams) (seed : Bytes) :
    Asks (2 ^ p.h * (leafCost p.wots + 4)) 0 (fun S => Qrl.xmssGenkeypair S hf p seed) := by
  simp only [Qrl.xmssGenkeypair]
  refine Asks.bind0 _ (fun s48 _ => ?_)
  have hl := length_shake256 96 s48
  generalize shake256 96 s48 = rb at hl ⊢
  have e := Asks.treehash hf p.h 0 (rb.take 32) (by rw [List.length_take]; omega) p (rb.drop 64)
    (by rw [List.length_drop]; omega) {}
  exact Asks.bind (g := fun _ y => ok (idxBytes 0 ++ rb ++ y)) (m := 0) (c := 0) e (fun y => Asks.const _)

theorem Asks.authLeaves (hf : HashFn) (sk : Bytes) (hsk : sk.length ≤ 64) (p : XmssParams) (ps : Bytes) (hps : ps.length ≤ 64)
    (m : Nat) : ∀ (i : Nat) (tree : List Cell) (a b : Adrs),
    Asks (m * leafCost p.wots) 0 (fun S => Qrl.authLeaves S hf sk p ps m i tree a b) := by
  induction m with
  | zero => intro i tree a b; exact (Asks.const _).mono (by omega) (by omega)
  | succ m ih =>
    intro i tree a b
    simp only [Qrl.authLeaves]
    exact (Asks.bind (m := m * leafCost p.wots) (c := 0) (Asks.genLeafWots hf sk hsk p ps hps _ _)
      (fun y => Asks.bind0 _ (fun tree _ => ih (i + 1) tree y.2.1 y.2.2))).mono (by rw [Nat.add_mul m 1, Nat.one_mul]; omega) (by omega)

theorem Asks.authRow (hf : HashFn) (ps : Bytes) (hps : ps.length ≤ 64) (i m : Nat) : ∀ (j : Nat) (tree : List Cell) (a : Adrs),
    Asks (4 * m) 0 (fun S => Qrl.authRow S hf ps i m j tree a) := by
  induction m with
  | zero => intro j tree a; exact Asks.const _
  | succ m ih =>
    intro j tree a
    simp only [Qrl.authRow]
    refine Asks.bind0 _ (fun l _ => Asks.bind0 _ (fun r _ => ?_))
    have e := Asks.seq (g := fun S (z : Bytes × Adrs) => wr tree ((i >>> 1) + (j >>> 1)) (some z.1) >>= fun tree =>
      Qrl.authRow S hf ps i m (j + 2) tree z.2) (m := 4 * m) (c := 0) (fun _ => True)
      (Asks.hashH hf ps hps (a.setTreeIndex (j >>> 1)) (Asks.const (l ++ r))) (fun _ => trivial)
      (fun z _ => Asks.bind0 _ (fun tree _ => ih (j + 2) tree z.2))
    exact e.mono (by omega) (by omega)

theorem Asks.authLevels (hf : HashFn) (ps : Bytes) (hps : ps.length ≤ 64) (i : Nat) : ∀ (level : Nat) (tree : List Cell) (a : Adrs),
    Asks (4 * (i - 1)) 0 (fun S => Qrl.authLevels S hf ps i level tree a) := by
  induction i using Nat.strongRecOn with
  | ind i ih =>
    intro level tree a
    have e1 : i >>> 1 = i / 2 := Nat.shiftRight_eq_div_pow i 1
    by_cases hi : i > 1
    · have e : (fun S => Qrl.authLevels S hf ps i level tree a) = fun S =>
          Qrl.authRow S hf ps i ((i + 1) / 2) 0 tree (a.setTreeHeight level) >>= fun y =>
          Qrl.authLevels S hf ps (i >>> 1) (level + 1) y.1 y.2 := by
        funext S
        rw [Qrl.authLevels, dif_pos hi]
      rw [e]
      exact (Asks.bind (m := 4 * (i >>> 1 - 1)) (c := 0) (Asks.authRow hf ps hps i ((i + 1) / 2) 0 tree _)
        (fun y => ih (i >>> 1) (by omega) (level + 1) y.1 y.2)).mono (by omega) (by omega)
    · have e : (fun S => Qrl.authLevels S hf ps i level tree a) = fun _ => ok tree := by
        funext S
        rw [Qrl.authLevels, dif_neg hi]
      rw [e]
      exact (Asks.const _).mono (by omega) (by omega)

theorem Asks.computeAuthpathWots (hf : HashFn) (li : Nat) (sk : Bytes) (hsk : sk.length ≤ 64) (p : XmssParams) (ps : Bytes)
    (hps : ps.length ≤ 64) (a : Adrs) :
    Asks (2 ^ p.h * leafCost p.wots + 4 * (2 ^ p.h - 1)) 0 (fun S => Qrl.computeAuthpathWots S hf li sk p ps a) := by
  simp only [Qrl.computeAuthpathWots]
  refine Asks.ite _ (fun _ => (Asks.const _).mono (by omega) (by omega)) (fun _ => ?_)
  refine Asks.bind (c := 0) (Asks.authLeaves hf sk hsk p ps hps (2 ^ p.h) 0 _ _ _) (fun tree => ?_)
  exact Asks.bind (m := 0) (c := 0) (Asks.authLevels hf ps hps (2 ^ p.h) 0 tree _) (fun tree => Asks.const _)

theorem Asks.xmssSignmsg (hf : HashFn) (p : XmssParams) (sk : Bytes) (msg : Bytes) :
    Asks (3 + (p.wots.len + 3 * (p.wots.w - 1) * p.wots.len) + (2 ^ p.h * leafCost p.wots + 4 * (2 ^ p.h - 1))) 1
      (fun S => Qrl.xmssSignmsg S hf p sk msg) := by
  generalize hN : 2 ^ p.h * leafCost p.wots + 4 * (2 ^ p.h - 1) = N
  simp only [Qrl.xmssSignmsg]
  refine Asks.bind0 _ (fun idx _ => Asks.bind0 _ (fun skSeed h1 => Asks.bind0 _ (fun skPrf h2 => Asks.bind0 _ (fun ps h3 => ?_))))
  have h1 : skSeed.length ≤ 64 := by rw [length_of_slice h1]; omega
  have h2 : skPrf.length ≤ 64 := by rw [length_of_slice h2]; omega
  have h3 : ps.length ≤ 64 := by rw [length_of_slice h3]; omega
  refine Asks.bind0 _ (fun root _ => ?_)
  refine (Asks.seq (g := fun S r => (fun msgH => (fun (os : Bytes × Adrs) =>
      Qrl.wotsSign S hf p.wots msgH os.1 ps os.2 >>= fun ws => Qrl.computeAuthpathWots S hf idx skSeed p ps ws.2 >>= fun y =>
      ok (idxBytes (idx + 1) ++ sk.drop 4, idxBytes idx ++ r ++ ws.1.flatten ++ y.2.flatten))
      (Qrl.getSeed S hf skSeed ((({} : Adrs).setType 0).setOTS idx))) (Qrl.hMsg S hf msg (r ++ root ++ toByte idx 32)))
    (m := 2 + (p.wots.len + 3 * (p.wots.w - 1) * p.wots.len) + N) (c := 1) (fun _ => True)
    (Asks.prf hf (toByte idx 32) (by simp) (Asks.const skPrf) (fun _ => h2)) (fun _ => trivial) (fun r _ => ?_)).mono
    (by omega) (by omega)
  refine (Asks.seq (g := fun S msgH => (fun (os : Bytes × Adrs) =>
      Qrl.wotsSign S hf p.wots msgH os.1 ps os.2 >>= fun ws => Qrl.computeAuthpathWots S hf idx skSeed p ps ws.2 >>= fun y =>
      ok (idxBytes (idx + 1) ++ sk.drop 4, idxBytes idx ++ r ++ ws.1.flatten ++ y.2.flatten))
      (Qrl.getSeed S hf skSeed ((({} : Adrs).setType 0).setOTS idx)))
    (m := 1 + (p.wots.len + 3 * (p.wots.w - 1) * p.wots.len) + N) (c := 0) (fun _ => True)
    (Asks.hMsg hf msg (r ++ root ++ toByte idx 32)) (fun _ => trivial) (fun mh _ => ?_)).mono (by omega) (by omega)
  refine (Asks.seq (g := fun S (os : Bytes × Adrs) => Qrl.wotsSign S hf p.wots mh os.1 ps os.2 >>= fun ws =>
      Qrl.computeAuthpathWots S hf idx skSeed p ps ws.2 >>= fun y =>
      ok (idxBytes (idx + 1) ++ sk.drop 4, idxBytes idx ++ r ++ ws.1.flatten ++ y.2.flatten))
    (m := p.wots.len + 3 * (p.wots.w - 1) * p.wots.len + N) (c := 0)
    (fun y => y.1.length ≤ 64) (Asks.getSeed hf skSeed h1 ((({} : Adrs).setType 0).setOTS idx)) (fun S => length_getSeed S hf _ _)
    (fun os hos => ?_)).mono (by omega) (by omega)
  refine Asks.bind (c := 0) (Asks.wotsSign hf p.wots ps h3 mh os.1 hos os.2) (fun ws => ?_)
  rw [← hN]
  exact Asks.bind (m := 0) (c := 0) (Asks.computeAuthpathWots hf idx skSeed h1 p ps h3 ws.2) (fun y => Asks.const _)

end Qrl.Spec
