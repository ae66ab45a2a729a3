import Verif.Spec.Lifetime

namespace Qrl

open Outcome Spec

theorem Bufs.state_of (s : BdsState) : (Bufs.of s).state s.stackoffset s.nextLeaf = s := rfl

/-- How an object in memory represents a value. -/
structure ObjRel (bufs : List Bufs) (o : FastObj) (x : ValueObj) : Prop where
  base : o.base = x.value.toXmssBase
  whole : x.whole = true → o.own = some o.ptr ∧ bufs[o.ptr]? = some (Bufs.of x.value.state) ∧
    o.stackoffset = x.value.state.stackoffset ∧ o.nextLeaf = x.value.state.nextLeaf

theorem ObjRel.view {m : FastMem} {o : FastObj} {x : ValueObj} (h : ObjRel m.bufs o x) (hw : x.whole = true) :
    m.view o = x.value := by
  obtain ⟨_, h2, h3, h4⟩ := h.whole hw
  rw [FastMem.view, List.getD_eq_getElem?_getD, h2, h3, h4, h.base]
  rfl

/-- Memory represents the values. -/
structure MemRel (m : FastMem) (W : List (Option ValueObj)) : Prop where
  len : m.objs.length = W.length
  dead : ∀ a : Nat, m.objs[a]? = some none → W[a]? = some none
  live : ∀ (a : Nat) o, m.objs[a]? = some (some o) → ∃ x, W[a]? = some (some x) ∧ ObjRel m.bufs o x
  valid : ∀ (a : Nat) o b, m.objs[a]? = some (some o) → o.own = some b → b < m.bufs.length
  dist : ∀ (a a' : Nat) o o' b, m.objs[a]? = some (some o) → m.objs[a']? = some (some o') → o.own = some b →
    o'.own = some b → a = a'

theorem memRel_empty : MemRel ⟨[], []⟩ [] :=
  ⟨rfl, by simp, by simp, by simp, by simp⟩

theorem MemRel.find {m : FastMem} {W : List (Option ValueObj)} (h : MemRel m W) {a : Nat} {x : ValueObj}
    (hx : W[a]? = some (some x)) : ∃ o, m.objs[a]? = some (some o) ∧ ObjRel m.bufs o x := by
  have hlt : a < m.objs.length := by
    rw [h.len]; exact (List.getElem?_eq_some_iff.mp hx).1
  rcases hc : m.objs[a]? with _ | c
  · rw [List.getElem?_eq_none_iff] at hc; omega
  · cases c with
    | none => rw [h.dead a hc] at hx; cases hx
    | some o =>
      obtain ⟨x', e1, e2⟩ := h.live a o hc
      rw [hx] at e1
      cases e1
      exact ⟨o, rfl, e2⟩

/-- Adding an object. -/
theorem MemRel.push {m : FastMem} {W : List (Option ValueObj)} (h : MemRel m W) (o : FastObj) (x : ValueObj) (nb : List Bufs)
    (hr : ObjRel (m.bufs ++ nb) o x) (hv : ∀ b, o.own = some b → b < (m.bufs ++ nb).length)
    (hd : ∀ (a : Nat) o' b, m.objs[a]? = some (some o') → o'.own = some b → o.own ≠ some b) :
    MemRel ⟨m.objs ++ [some o], m.bufs ++ nb⟩ (W ++ [some x]) := by
  have key : ∀ (a : Nat) c, (m.objs ++ [some o])[a]? = some c → m.objs[a]? = some c ∨ (a = m.objs.length ∧ c = some o) := by
    intro a c hc
    rcases Nat.lt_or_ge a m.objs.length with hl | hl
    · rw [List.getElem?_append_left hl] at hc; exact Or.inl hc
    · rw [List.getElem?_append_right hl] at hc
      have : a - m.objs.length = 0 := by
        have := (List.getElem?_eq_some_iff.mp hc).1
        simp at this; omega
      rw [this] at hc
      simp at hc
      exact Or.inr ⟨by omega, hc.symm⟩
  have old : ∀ (a : Nat) c, W[a]? = some c → (W ++ [some x])[a]? = some c := by
    intro a c hc
    rw [List.getElem?_append_left (List.getElem?_eq_some_iff.mp hc).1, hc]
  refine ⟨by simp [h.len], ?_, ?_, ?_, ?_⟩
  · intro a ha
    rcases key a _ ha with h1 | ⟨_, h1⟩
    · exact old a _ (h.dead a h1)
    · cases h1
  · intro a o' ha
    rcases key a _ ha with h1 | ⟨h0, h1⟩
    · obtain ⟨x', e1, e2⟩ := h.live a o' h1
      refine ⟨x', old a _ e1, e2.base, fun hw => ?_⟩
      obtain ⟨g1, g2, g3⟩ := e2.whole hw
      exact ⟨g1, by rw [List.getElem?_append_left (List.getElem?_eq_some_iff.mp g2).1, g2], g3⟩
    · cases h1
      refine ⟨x, ?_, hr⟩
      rw [h0, h.len]; simp
  · intro a o' b ha hb
    rcases key a _ ha with h1 | ⟨h0, h1⟩
    · have := h.valid a o' b h1 hb
      simp only [List.length_append]; omega
    · cases h1; exact hv b hb
  · intro a a' o1 o2 b h1 h2 b1 b2
    rcases key a _ h1 with g1 | ⟨g1, e1⟩ <;> rcases key a' _ h2 with g2 | ⟨g2, e2⟩
    · exact h.dist a a' o1 o2 b g1 g2 b1 b2
    · cases e2; exact absurd b2 (hd a o1 b g1 b1)
    · cases e1; exact absurd b1 (hd a' o2 b g2 b2)
    · omega

/-- Changing one object and the memory it owned. Nobody else owns what it owns now. -/
theorem MemRel.replace {m : FastMem} {W : List (Option ValueObj)} (h : MemRel m W) (a : Nat) (o : FastObj)
    (ho : m.objs[a]? = some (some o)) (c : Option FastObj) (y : Option ValueObj) (bufs : List Bufs)
    (hcy : match c, y with
      | none, none => True
      | some o', some x' => ObjRel bufs o' x' ∧
          (∀ b, o'.own = some b → ∀ (i : Nat) o1, i ≠ a → m.objs[i]? = some (some o1) → o1.own ≠ some b) ∧
          ∀ b, o'.own = some b → b < bufs.length
      | _, _ => False)
    (hlen : m.bufs.length ≤ bufs.length)
    (hb : ∀ b, b < m.bufs.length → o.own ≠ some b → bufs[b]? = m.bufs[b]?) :
    MemRel ⟨m.objs.set a c, bufs⟩ (W.set a y) := by
  have hlt : a < m.objs.length := (List.getElem?_eq_some_iff.mp ho).1
  have hlt' : a < W.length := by rw [← h.len]; exact hlt
  have key : ∀ (i : Nat) d, (m.objs.set a c)[i]? = some d → (i ≠ a ∧ m.objs[i]? = some d) ∨ (i = a ∧ d = c) := by
    intro i d hi
    by_cases e : i = a
    · subst e
      rw [List.getElem?_set_self hlt] at hi
      cases hi; exact Or.inr ⟨rfl, rfl⟩
    · rw [List.getElem?_set_ne (fun h => e h.symm)] at hi
      exact Or.inl ⟨e, hi⟩
  refine ⟨by simp [h.len], ?_, ?_, ?_, ?_⟩
  · intro i hi
    rcases key i _ hi with ⟨e, h1⟩ | ⟨e, h1⟩
    · rw [List.getElem?_set_ne (fun h => e h.symm)]; exact h.dead i h1
    · subst e; subst h1
      cases y with
      | none => exact List.getElem?_set_self hlt'
      | some x => exact absurd hcy id
  · intro i o' hi
    rcases key i _ hi with ⟨e, h1⟩ | ⟨e, h1⟩
    · obtain ⟨x, e1, e2⟩ := h.live i o' h1
      refine ⟨x, by rw [List.getElem?_set_ne (fun h => e h.symm)]; exact e1, e2.base, fun hw => ?_⟩
      obtain ⟨g1, g2, g3⟩ := e2.whole hw
      refine ⟨g1, ?_, g3⟩
      rw [hb o'.ptr (List.getElem?_eq_some_iff.mp g2).1 (fun hc => e (h.dist i a o' o o'.ptr h1 ho g1 hc)), g2]
    · subst e; subst h1
      cases y with
      | none => exact absurd hcy id
      | some x => exact ⟨x, List.getElem?_set_self hlt', hcy.1⟩
  · intro i o' b hi hbo
    rcases key i _ hi with ⟨e, h1⟩ | ⟨e, h1⟩
    · exact Nat.lt_of_lt_of_le (h.valid i o' b h1 hbo) hlen
    · subst e; subst h1
      cases y with
      | none => exact absurd hcy id
      | some x => exact hcy.2.2 b hbo
  · intro i j o1 o2 b h1 h2 b1 b2
    have cross : ∀ (i : Nat) o1, i ≠ a → m.objs[i]? = some (some o1) → o1.own = some b → ∀ o2, c = some o2 → o2.own = some b →
        False := by
      intro i o1 e g b1 o2 e2 b2
      subst e2
      cases y with
      | none => exact hcy
      | some x => exact hcy.2.1 b b2 i o1 e g b1
    rcases key i _ h1 with ⟨e1, g1⟩ | ⟨e1, g1⟩ <;> rcases key j _ h2 with ⟨e2, g2⟩ | ⟨e2, g2⟩
    · exact h.dist i j o1 o2 b g1 g2 b1 b2
    · exact absurd (cross i o1 e1 g1 b1 o2 g2.symm b2) id
    · exact absurd (cross j o2 e2 g2 b2 o1 g1.symm b1) id
    · omega

/-- Changing one object and the memory it owned. The new ownership is either the old one, none or new memory. -/
theorem MemRel.update {m : FastMem} {W : List (Option ValueObj)} (h : MemRel m W) (a : Nat) (o : FastObj)
    (ho : m.objs[a]? = some (some o)) (c : Option FastObj) (y : Option ValueObj) (bufs : List Bufs)
    (hcy : match c, y with
      | none, none => True
      | some o', some x' => ObjRel bufs o' x' ∧ (o'.own = none ∨ o'.own = o.own ∨ o'.own = some m.bufs.length) ∧
          ∀ b, o'.own = some b → b < bufs.length
      | _, _ => False)
    (hlen : m.bufs.length ≤ bufs.length)
    (hb : ∀ b, b < m.bufs.length → o.own ≠ some b → bufs[b]? = m.bufs[b]?) :
    MemRel ⟨m.objs.set a c, bufs⟩ (W.set a y) := by
  refine h.replace a o ho c y bufs ?_ hlen hb
  cases c with
  | none =>
    cases y with
    | none => trivial
    | some x => exact hcy
  | some o' =>
    cases y with
    | none => exact hcy
    | some x =>
      refine ⟨hcy.1, ?_, hcy.2.2⟩
      intro b b2 i o1 e g b1
      rcases hcy.2.1 with k | k | k
      · rw [k] at b2; cases b2
      · rw [k] at b2; exact e (h.dist i a o1 o b g ho b1 b2)
      · rw [k] at b2; cases b2
        have := h.valid i o1 _ g b1
        omega

theorem initializeTree_congr (S : Sha256) (v v' : XmssFast) (h : v.toXmssBase = v'.toXmssBase) (w : Nat) :
    (∀ o', v.initializeTree S w = .ret () o' → v'.initializeTree S w = .ret () o') ∧
    (∀ e o', v.initializeTree S w = .raise e o' → ∃ o'', v'.initializeTree S w = .raise e o'' ∧
      o''.toXmssBase = o'.toXmssBase ∧ o'.state = v.state ∧ o''.state = v'.state) := by
  obtain ⟨b, st⟩ := v
  obtain ⟨b', st'⟩ := v'
  simp only at h
  subst h
  simp only [XmssFast.initializeTree]
  split
  · constructor
    · intro o' h; cases h
    · intro e o' h; cases h; exact ⟨_, rfl, rfl, rfl, rfl⟩
  · cases initTree S b.height b.hashFunction b.seed w with
    | ub => constructor <;> intro _ <;> intros <;> rename_i h <;> cases h
    | throw e =>
      constructor
      · intro o' h; cases h
      · intro e o' h; cases h; exact ⟨_, rfl, rfl, rfl, rfl⟩
    | ok x =>
      constructor
      · intro o' h; cases h; rfl
      · intro e o' h; cases h

theorem freeOwn_length (bufs : List Bufs) (o : Option Nat) : (freeOwn bufs o).length = bufs.length := by
  cases o <;> simp [freeOwn]

theorem freeOwn_other (bufs : List Bufs) (o : Option Nat) (b : Nat) (h : o ≠ some b) : (freeOwn bufs o)[b]? = bufs[b]? := by
  cases o with
  | none => rfl
  | some c => rw [freeOwn, List.getElem?_set_ne]; rintro rfl; exact h rfl

theorem MemRel.initCall {S : Sha256} {m : FastMem} {W : List (Option ValueObj)} (h : MemRel m W) {a : Nat}
    {x : ValueObj} {o : FastObj} (ho : m.objs[a]? = some (some o))
    (hr : ObjRel m.bufs o x) {w : Nat} {v' : XmssFast} (hv : x.value.initializeTree S w = .ret () v') :
    ∃ m', m.step S (.call a (.initializeTree w)) = some (.reply none, m') ∧ MemRel m' (W.set a (some ⟨v', true⟩)) := by
  have hvw := (initializeTree_congr S x.value (m.view o) (by rw [← hr.base]; rfl) w).1 _ hv
  rw [FastMem.step, ho]
  simp only [hvw]
  refine ⟨_, rfl, ?_⟩
  refine h.update a o ho _ _ _ ⟨⟨rfl, fun _ => ⟨rfl, ?_, rfl, rfl⟩⟩, Or.inr (Or.inr rfl), ?_⟩ ?_ ?_
  · simp [freeOwn_length]
  · intro b hb; cases hb; simp [freeOwn_length]
  · simp [freeOwn_length]
  · intro b hlt hne
    rw [List.getElem?_append_left (by rw [freeOwn_length]; exact hlt), freeOwn_other _ _ _ hne]

theorem mem_step {S : Sha256} {m : FastMem} {W : List (Option ValueObj)} (h : MemRel m W) (op : FastOp) {r : OpReply}
    {W' : List (Option ValueObj)} (hs : valueStep S W op = some (r, W')) :
    ∃ m', m.step S op = some (r, m') ∧ MemRel m' W' := by
  cases op with
  | create seed height hf af =>
    rw [valueStep] at hs
    rw [FastMem.step]
    cases hn : XmssFast.new S seed height hf af with
    | ub => rw [hn] at hs; cases hs
    | throw e => rw [hn] at hs; cases hs; exact ⟨m, rfl, h⟩
    | ok o =>
      rw [hn] at hs
      cases hs
      refine ⟨_, by rw [h.len], ?_⟩
      apply h.push
      · exact ⟨rfl, fun _ => ⟨rfl, by simp, rfl, rfl⟩⟩
      · intro b hb; cases hb; simp
      · intro a o' b ha hb hc
        cases hc
        have := h.valid a o' _ ha hb
        omega
  | copy a =>
    rw [valueStep] at hs
    split at hs
    · rename_i x hx
      cases hs
      obtain ⟨o, ho, hr⟩ := h.find hx
      refine ⟨_, by rw [FastMem.step, ho, ← h.len], ?_⟩
      apply h.push
      · exact ⟨hr.base, fun hw => by cases hw⟩
      · intro b hb; cases hb; simp
      · intro a o' b ha hb hc
        cases hc
        have := h.valid a o' _ ha hb
        omega
    · cases hs
  | move a =>
    rw [valueStep] at hs
    split at hs
    · rename_i x hx
      cases hs
      obtain ⟨o, ho, hr⟩ := h.find hx
      refine ⟨_, by rw [FastMem.step, ho, ← h.len], ?_⟩
      have hu := h.update a o ho (some { o with own := none }) (some ⟨x.value, false⟩) m.bufs
        ⟨⟨hr.base, fun hw => by cases hw⟩, Or.inl rfl, by simp⟩ (Nat.le_refl _) (fun _ _ _ => rfl)
      have := hu.push o x [] (by rw [List.append_nil]; exact hr)
        (by intro b hb; rw [List.append_nil]; exact h.valid a o b ho hb) ?_
      · rw [List.append_nil] at this
        exact this
      · intro i o' b hi hb hc
        by_cases e : i = a
        · subst e
          simp only [List.getElem?_set_self (List.getElem?_eq_some_iff.mp ho).1] at hi
          cases hi
          cases hb
        · simp only [List.getElem?_set_ne (fun h => e h.symm)] at hi
          exact e (h.dist i a o' o b hi ho hb hc)
    · cases hs
  | destroy a =>
    rw [valueStep] at hs
    split at hs
    · rename_i x hx
      cases hs
      obtain ⟨o, ho, hr⟩ := h.find hx
      refine ⟨_, by rw [FastMem.step, ho], ?_⟩
      apply h.update a o ho none none _ trivial
      · rw [freeOwn_length]; exact Nat.le_refl _
      · intro b _ hne; exact freeOwn_other _ _ _ hne
    · cases hs
  | assign dst src realloc =>
    rw [valueStep] at hs
    split at hs
    · rename_i z x hz hx
      obtain ⟨d, hd, _⟩ := h.find hz
      obtain ⟨o, ho, hr⟩ := h.find hx
      cases hs
      rw [FastMem.step, hd, ho]
      simp only
      by_cases e : dst = src
      · rw [if_pos e, if_pos e]; exact ⟨m, rfl, h⟩
      · rw [if_neg e, if_neg e]
        have fresh : ∃ m', some (OpReply.done, (⟨m.objs.set dst (some { o with own := some m.bufs.length }),
            freeOwn m.bufs d.own ++ [ownContent m.bufs o.own]⟩ : FastMem)) = some (OpReply.done, m') ∧
            MemRel m' (W.set dst (some ⟨x.value, false⟩)) := by
          refine ⟨_, rfl, h.update dst d hd _ _ _ ⟨⟨hr.base, fun hw => by cases hw⟩, Or.inr (Or.inr rfl), ?_⟩ ?_ ?_⟩
          · intro b hb; cases hb; simp [freeOwn_length]
          · simp [freeOwn_length]
          · intro b hlt hne
            rw [List.getElem?_append_left (by rw [freeOwn_length]; exact hlt), freeOwn_other _ _ _ hne]
        cases hk : d.own with
        | none => rw [hk] at fresh; exact fresh
        | some k =>
          cases realloc with
          | true => rw [hk] at fresh; exact fresh
          | false =>
            refine ⟨_, rfl, h.update dst d hd _ _ _ ⟨⟨hr.base, fun hw => by cases hw⟩, Or.inr (Or.inl hk.symm), ?_⟩ ?_ ?_⟩
            · intro b hb; cases hb; simp only [List.length_set]; exact h.valid dst d _ hd hk
            · simp
            · intro b _ hne
              rw [List.getElem?_set_ne]
              rintro rfl
              exact hne hk
    · cases hs
  | moveAssign dst src =>
    rw [valueStep] at hs
    split at hs
    · rename_i z x hz hx
      obtain ⟨d, hd, _⟩ := h.find hz
      obtain ⟨o, ho, hr⟩ := h.find hx
      by_cases e : dst = src
      · rw [if_pos e] at hs; cases hs
      · rw [if_neg e] at hs
        cases hs
        rw [FastMem.step, hd, ho]
        simp only
        rw [if_neg e]
        refine ⟨_, rfl, ?_⟩
        have hu := h.update src o ho (some { o with own := none }) (some ⟨x.value, false⟩) m.bufs
          ⟨⟨hr.base, fun hw => by cases hw⟩, Or.inl rfl, by simp⟩ (Nat.le_refl _) (fun _ _ _ => rfl)
        have hd' : (m.objs.set src (some { o with own := none }))[dst]? = some (some d) := by
          rw [List.getElem?_set_ne (fun h => e h.symm)]; exact hd
        refine hu.replace dst d hd' (some o) (some x) (freeOwn m.bufs d.own) ⟨⟨hr.base, fun hw => ?_⟩, ?_, ?_⟩ ?_ ?_
        · obtain ⟨g1, g2, g3⟩ := hr.whole hw
          refine ⟨g1, ?_, g3⟩
          rw [freeOwn_other _ _ _ (fun hc => e (h.dist dst src d o o.ptr hd ho hc g1)), g2]
        · intro b hb i o1 hi h1
          by_cases es : i = src
          · subst es
            simp only [List.getElem?_set_self (List.getElem?_eq_some_iff.mp ho).1] at h1
            cases h1
            intro hc; cases hc
          · simp only [List.getElem?_set_ne (fun h => es h.symm)] at h1
            intro hc
            exact es (h.dist i src o1 o b h1 ho hc hb)
        · intro b hb; rw [freeOwn_length]; exact h.valid src o b ho hb
        · rw [freeOwn_length]; exact Nat.le_refl _
        · intro b _ hne; exact freeOwn_other _ _ _ hne
    · cases hs
  | call a c =>
    rw [valueStep] at hs
    split at hs
    · rename_i v hx
      obtain ⟨o, ho, hr⟩ := h.find hx
      obtain ⟨g1, g2, g3, g4⟩ := hr.whole rfl
      have hvw : m.view o = v := hr.view rfl
      cases c with
      | basic c =>
        rw [XmssFast.fullCall] at hs
        rw [FastMem.step, ho]
        simp only [hvw]
        cases hc : v.call S c with
        | none => rw [hc] at hs; cases hs
        | some y =>
          obtain ⟨r', v'⟩ := y
          rw [hc] at hs
          cases hs
          refine ⟨_, rfl, ?_⟩
          have hlt := (List.getElem?_eq_some_iff.mp g2).1
          refine h.update a o ho _ _ _ ⟨⟨rfl, fun _ => ⟨g1, ?_, rfl, rfl⟩⟩, Or.inr (Or.inl rfl), ?_⟩ ?_ ?_
          · simp [hlt]
          · intro b hb; simp only [List.length_set]; exact h.valid a o b ho hb
          · simp
          · intro b _ hne
            rw [List.getElem?_set_ne]
            rintro rfl
            exact hne g1
      | initializeTree w =>
        rw [XmssFast.fullCall] at hs
        cases hc : v.initializeTree S w with
        | ub => rw [hc] at hs; cases hs
        | ret u v' =>
          rw [hc] at hs
          cases hs
          exact h.initCall ho hr hc
        | raise e v' =>
          rw [hc] at hs
          cases hs
          rw [FastMem.step, ho]
          simp only [hvw, hc]
          refine ⟨_, rfl, ?_⟩
          have hst := ((initializeTree_congr S v v rfl w).2 e v' hc).choose_spec.2.2.1
          refine h.update a o ho _ _ _ ⟨⟨rfl, fun _ => ?_⟩, Or.inr (Or.inl rfl), ?_⟩ (Nat.le_refl _) (fun _ _ _ => rfl)
          · simp only [hst]; exact ⟨g1, g2, g3, g4⟩
          · intro b hb; exact h.valid a o b ho hb
    · rename_i v hx
      obtain ⟨o, ho, hr⟩ := h.find hx
      cases c with
      | basic c => cases hs
      | initializeTree w =>
        simp only at hs
        cases hc : v.initializeTree S w with
        | ub => rw [hc] at hs; cases hs
        | raise e v' => rw [hc] at hs; cases hs
        | ret u v' =>
          rw [hc] at hs
          cases hs
          exact h.initCall ho hr hc
    · cases hs

theorem mem_run {S : Sha256} (ops : List FastOp) : ∀ {m : FastMem} {W : List (Option ValueObj)} {rs : List OpReply}
    {W' : List (Option ValueObj)}, MemRel m W → valueRun S W ops = some (rs, W') →
    ∃ m', m.run S ops = some (rs, m') ∧ MemRel m' W' := by
  induction ops with
  | nil => intro m W rs W' h hr; cases hr; exact ⟨m, rfl, h⟩
  | cons op ops ih =>
    intro m W rs W' h hr
    rw [valueRun] at hr
    cases hs : valueStep S W op with
    | none => rw [hs] at hr; cases hr
    | some x =>
      obtain ⟨r, W1⟩ := x
      rw [hs] at hr
      simp only at hr
      obtain ⟨m1, e1, h1⟩ := mem_step h op hs
      cases hr1 : valueRun S W1 ops with
      | none => rw [hr1] at hr; cases hr
      | some y =>
        obtain ⟨rs1, W2⟩ := y
        rw [hr1] at hr
        cases hr
        obtain ⟨m2, e2, h2⟩ := ih h1 hr1
        refine ⟨m2, ?_, h2⟩
        rw [FastMem.run, e1]
        simp only [e2]

end Qrl
