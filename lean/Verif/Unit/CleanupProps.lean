import Verif.Unit.CleanupModel
import Verif.Bundle.PoolProps

/-!
# Classes are stored after their base classes (C37)
-/

namespace Redscript

/-! ### Specification -/

/-- The indexes fit their type, the placeholder is not a class, and base classes are classes. -/
structure ConstantPool.ClassesOk (p : ConstantPool) : Prop where
  size : p.definitions.length ≤ 2 ^ 32
  zero : p.baseOf 0 = none
  base : ∀ i b, p.baseOf i = some b → b ≠ 0 → ∃ b', p.baseOf b = some b'

/-- No class is its own ancestor: the classes can be ranked such that bases have a lower rank. -/
def ConstantPool.AcyclicClasses (p : ConstantPool) : Prop :=
  ∃ r : Idx → Nat, ∀ i b, p.baseOf i = some b → b ≠ 0 → r b < r i

/-- Every class is stored behind its base class. -/
def ConstantPool.BasesFirst (p : ConstantPool) : Prop :=
  ∀ i b, p.baseOf i = some b → b ≠ 0 → b.toNat < i.toNat

/-- Every class among the first `n` definitions is stored behind its base class. -/
def ConstantPool.BasesFirstBelow (p : ConstantPool) (n : Nat) : Prop :=
  ∀ i b, p.baseOf i = some b → i.toNat < n → b ≠ 0 → b.toNat < i.toNat

/-! ### Sets -/

abbrev Ascending (s : List Idx) : Prop := s.Pairwise fun a b => a.toNat < b.toNat

theorem setInsert_mem (x y : Idx) (s : List Idx) : y ∈ setInsert x s ↔ y = x ∨ y ∈ s := by
  induction s with
  | nil => simp [setInsert]
  | cons z s ih =>
    rw [setInsert]
    split
    · simp
    split
    · rename_i h; subst h; simp
    · simp only [List.mem_cons, ih]
      constructor
      · rintro (h | h | h) <;> simp [h]
      · rintro (h | h | h) <;> simp [h]

theorem setInsert_asc (x : Idx) (s : List Idx) (h : Ascending s) : Ascending (setInsert x s) := by
  induction s with
  | nil => simp [setInsert]
  | cons z s ih =>
    rw [setInsert]
    have h := List.pairwise_cons.1 h
    split
    · rename_i hx
      refine List.pairwise_cons.2 ⟨?_, List.pairwise_cons.2 h⟩
      intro y hy
      rcases List.mem_cons.1 hy with rfl | hy
      · exact hx
      · exact Nat.lt_trans hx (h.1 y hy)
    split
    · exact List.pairwise_cons.2 h
    · rename_i h1 h2
      refine List.pairwise_cons.2 ⟨?_, ih h.2⟩
      intro y hy
      rcases (setInsert_mem x y s).1 hy with rfl | hy
      · have : z.toNat ≠ y.toNat := fun he => h2 (BitVec.eq_of_toNat_eq he.symm)
        omega
      · exact h.1 y hy

/-! ### Descendants -/

section

variable {p : ConstantPool} (hp : p.ClassesOk) {r : Idx → Nat} (hr : ∀ i b, p.baseOf i = some b → b ≠ 0 → r b < r i)

theorem baseOf_definition {i b : Idx} (h : p.baseOf i = some b) :
    ∃ d c, p.definition i = some d ∧ d.value = .Class c ∧ c.base = b := by
  unfold ConstantPool.baseOf ConstantPool.definitionBy at h
  unfold ConstantPool.definition
  cases hd : p.definitions[i.toNat]? with
  | none => rw [hd] at h; cases h
  | some d =>
    rw [hd] at h
    simp only [Option.bind_some] at h
    cases hv : d.value with
    | Class c =>
      rw [hv] at h
      simp only [AnyDefinition.asClass, Option.map_some, Option.some.injEq] at h
      exact ⟨d, c, rfl, hv, h⟩
    | _ => rw [hv] at h; cases h

theorem definition_baseOf {i : Idx} {d : Definition} {c : ClassDef} (h : p.definition i = some d) (hv : d.value = .Class c) :
    p.baseOf i = some c.base := by
  unfold ConstantPool.definition at h
  unfold ConstantPool.baseOf ConstantPool.definitionBy
  rw [h]
  simp [hv, AnyDefinition.asClass]

include hp in
theorem mem_subclasses (s b : Idx) : s ∈ p.subclasses b ↔ p.baseOf s = some b ∧ b ≠ 0 := by
  unfold ConstantPool.subclasses
  rw [List.mem_filterMap]
  constructor
  · rintro ⟨⟨i, d⟩, hm, he⟩
    rw [C12_iteration p hp.size] at hm
    simp only [] at he
    split at he
    · rename_i c hv
      split at he
      · rename_i hb
        cases he
        rw [definition_baseOf hm.2 hv, hb.2]
        exact ⟨rfl, hb.2 ▸ hb.1⟩
      · cases he
    · cases he
  · rintro ⟨h, hb⟩
    obtain ⟨d, c, h1, h2, h3⟩ := baseOf_definition h
    refine ⟨(s, d), (C12_iteration p hp.size s d).2 ⟨?_, h1⟩, ?_⟩
    · rintro rfl
      rw [hp.zero] at h; cases h
    · simp only [h2]
      rw [if_pos ⟨by rw [h3]; exact hb, h3⟩]

/-- `y` is `x` or one of its descendants. -/
inductive ConstantPool.Below (p : ConstantPool) : Idx → Idx → Prop
  | refl (x : Idx) : Below p x x
  | step {y b x : Idx} : p.baseOf y = some b → b ≠ 0 → Below p b x → Below p y x

theorem ConstantPool.Below.trans {x y z : Idx} (h1 : p.Below x y) (h2 : p.Below y z) : p.Below x z := by
  induction h1 with
  | refl => exact h2
  | step hb h0 _ ih => exact .step hb h0 (ih h2)

/-- The descendants of a class are those of its subclasses, and itself. -/
theorem below_iff {x y : Idx} : p.Below y x ↔ y = x ∨ ∃ s, p.baseOf s = some x ∧ x ≠ 0 ∧ p.Below y s := by
  constructor
  · intro h
    induction h with
    | refl => exact .inl rfl
    | @step y b x hb h0 _ ih =>
      rcases ih with rfl | ⟨s, h1, h2, h3⟩
      · exact .inr ⟨y, hb, h0, .refl _⟩
      · exact .inr ⟨s, h1, h2, .step hb h0 h3⟩
  · rintro (rfl | ⟨s, h1, h2, h3⟩)
    · exact .refl _
    · exact h3.trans (.step h1 h2 (.refl _))

include hr in
theorem below_rank {x y : Idx} (h : p.Below y x) : y = x ∨ r x < r y := by
  induction h with
  | refl => exact .inl rfl
  | step hb h0 _ ih =>
    have := hr _ _ hb h0
    rcases ih with rfl | h
    · exact .inr this
    · exact .inr (Nat.lt_trans h this)

theorem below_class {x y : Idx} (h : p.Below y x) (hx : ∃ b, p.baseOf x = some b) : ∃ b, p.baseOf y = some b := by
  cases h with
  | refl => exact hx
  | step hb _ _ => exact ⟨_, hb⟩

/-! ### The loops -/

variable {R : Nat} (hR : ∀ i b, p.baseOf i = some b → r i ≤ R)

include hp hr hR in
theorem collectSubtypes_spec : ∀ (fuel : Nat) (i : Idx) (acc : List Idx), (∃ b, p.baseOf i = some b) → R < fuel + r i →
    ∃ acc', collectSubtypes p fuel i acc = .ok acc' ∧ (∀ y, y ∈ acc' ↔ y ∈ acc ∨ p.Below y i) ∧
      (Ascending acc → Ascending acc')
  | 0, i, acc, ⟨b, hb⟩, hf => by
    have := hR i b hb
    omega
  | fuel + 1, i, acc, _, hf => by
    have key : ∀ (l : List Idx), (∀ s ∈ l, s ∈ p.subclasses i) → ∀ acc, ∃ acc',
        l.foldlM (fun acc s => collectSubtypes p fuel s acc) acc = .ok acc' ∧
        (∀ y, y ∈ acc' ↔ y ∈ acc ∨ ∃ s ∈ l, p.Below y s) ∧ (Ascending acc → Ascending acc') := by
      intro l
      induction l with
      | nil => intro _ acc; exact ⟨acc, rfl, by simp, id⟩
      | cons s l ih =>
        intro hl acc
        obtain ⟨h1, h2⟩ := (mem_subclasses hp s i).1 (hl s (by simp))
        have := hr s i h1 h2
        obtain ⟨acc1, e1, m1, a1⟩ := collectSubtypes_spec fuel s acc ⟨_, h1⟩ (by omega)
        obtain ⟨acc2, e2, m2, a2⟩ := ih (fun s hs => hl s (by simp [hs])) acc1
        refine ⟨acc2, ?_, ?_, fun h => a2 (a1 h)⟩
        · rw [List.foldlM_cons, e1]; exact e2
        · intro y
          rw [m2, m1]
          simp only [List.mem_cons, exists_eq_or_imp, or_assoc]
    obtain ⟨acc', e, hm, ha⟩ := key (p.subclasses i) (fun _ h => h) (setInsert i acc)
    refine ⟨acc', e, ?_, fun h => ha (setInsert_asc i acc h)⟩
    intro y
    rw [hm, setInsert_mem, below_iff]
    constructor
    · rintro ((h | h) | ⟨s, hs, h⟩)
      · exact .inr (.inl h)
      · exact .inl h
      · obtain ⟨h1, h2⟩ := (mem_subclasses hp s i).1 hs
        exact .inr (.inr ⟨s, h1, h2, h⟩)
    · rintro (h | h | ⟨s, h1, h2, h⟩)
      · exact .inl (.inr h)
      · exact .inl (.inl h)
      · exact .inr ⟨s, (mem_subclasses hp s i).2 ⟨h1, h2⟩, h⟩

include hp hr in
theorem climbPast_spec (x : Idx) : ∀ (fuel : Nat) (cur : Idx), r cur < fuel → ∃ c, climbPast p x fuel cur = .ok c ∧
    ((c = cur ∧ ∀ b, p.baseOf cur = some b → ¬ x.toNat < b.toNat) ∨
      ∃ b, p.baseOf cur = some b ∧ x.toNat < b.toNat ∧ p.Below b c ∧ ∃ b', p.baseOf c = some b')
  | 0, cur, h => by omega
  | fuel + 1, cur, h => by
    rw [climbPast]
    cases hb : p.baseOf cur with
    | none => exact ⟨cur, rfl, .inl ⟨rfl, by simp⟩⟩
    | some b =>
      simp only []
      by_cases hx : x.toNat < b.toNat
      · rw [if_pos hx]
        have h0 : b ≠ 0 := by rintro rfl; simp at hx
        have := hr _ _ hb h0
        obtain ⟨c, hc, h1⟩ := climbPast_spec x fuel b (by omega)
        refine ⟨c, hc, .inr ⟨b, rfl, hx, ?_⟩⟩
        rcases h1 with ⟨rfl, _⟩ | ⟨b', hb', hx', h2, h3⟩
        · exact ⟨.refl _, hp.base _ _ hb h0⟩
        · exact ⟨.step hb' (by rintro rfl; simp at hx') h2, h3⟩
      · rw [if_neg hx]
        exact ⟨cur, rfl, .inl ⟨rfl, fun b' h => by cases h; exact hx⟩⟩

include hp hr in
theorem climbOutside_spec (m : Idx) (U : List Idx) : ∀ (fuel : Nat) (cur : Idx), r cur < fuel →
    ∃ c, climbOutside p m U fuel cur = .ok c ∧
    (∀ b, p.baseOf c = some b → b.toNat ≤ m.toNat ∨ b ∈ U) ∧
    (c = cur ∨ ∃ b, p.baseOf cur = some b ∧ b ≠ 0 ∧ p.Below b c ∧ m.toNat < c.toNat ∧ ∃ b', p.baseOf c = some b')
  | 0, cur, h => by omega
  | fuel + 1, cur, h => by
    rw [climbOutside]
    cases hb : p.baseOf cur with
    | none => exact ⟨cur, rfl, by rw [hb]; simp, .inl rfl⟩
    | some b =>
      simp only []
      by_cases hx : m.toNat < b.toNat ∧ ¬ b ∈ U
      · rw [if_pos hx]
        have h0 : b ≠ 0 := by rintro rfl; simp at hx
        have := hr _ _ hb h0
        obtain ⟨c, hc, h1, h2⟩ := climbOutside_spec m U fuel b (by omega)
        refine ⟨c, hc, h1, .inr ⟨b, rfl, h0, ?_⟩⟩
        rcases h2 with rfl | ⟨b', hb', h0', h2, h3, h4⟩
        · exact ⟨.refl _, hx.1, hp.base _ _ hb h0⟩
        · exact ⟨.step hb' h0' h2, h3, h4⟩
      · rw [if_neg hx]
        refine ⟨cur, rfl, ?_, .inl rfl⟩
        rw [hb]
        rintro b' ⟨⟩
        by_cases hm : b ∈ U
        · exact .inr hm
        · exact .inl (Nat.not_lt.1 fun h => hx ⟨h, hm⟩)

/-- The sets built up by the passes. -/
structure ClassSet (p : ConstantPool) (U : List Idx) : Prop where
  asc : Ascending U
  closed : ∀ x ∈ U, ∀ y, p.Below y x → y ∈ U
  classes : ∀ x ∈ U, ∃ b, p.baseOf x = some b

theorem ClassSet.add {U U' : List Idx} (h : ClassSet p U) {c : Idx} (hc : ∃ b, p.baseOf c = some b)
    (hm : ∀ y, y ∈ U' ↔ y ∈ U ∨ p.Below y c) (ha : Ascending U → Ascending U') : ClassSet p U' where
  asc := ha h.asc
  closed := by
    intro x hx y hy
    rw [hm] at hx ⊢
    rcases hx with hx | hx
    · exact .inl (h.closed x hx y hy)
    · exact .inr (hy.trans hx)
  classes := by
    intro x hx
    rcases (hm x).1 hx with hx | hx
    · exact h.classes x hx
    · exact below_class hx hc

include hp hr hR in
theorem firstPass_spec {fuel : Nat} (hf : R < fuel) {U : List Idx} (h : ClassSet p U) (x : Idx) :
    ∃ U', firstPass p fuel U x = .ok U' ∧ ClassSet p U' ∧ (∀ y ∈ U, y ∈ U') ∧
      (∀ b, p.baseOf x = some b → x.toNat < b.toNat → x ∈ U') ∧
      ((∀ b, p.baseOf x = some b → ¬ x.toNat < b.toNat) → U' = U) := by
  unfold firstPass
  by_cases hcls : ∃ b, p.baseOf x = some b
  · obtain ⟨b0, hb0⟩ := hcls
    have := hR _ _ hb0
    obtain ⟨c, hc, h1⟩ := climbPast_spec hp hr x fuel x (by omega)
    rw [hc]
    rcases h1 with ⟨rfl, h1⟩ | ⟨b, hb, hlt, h2, h3⟩
    · exact ⟨U, by simp [bind, Except.bind], h, fun _ h => h, fun b hb hlt => absurd hlt (h1 b hb), fun _ => rfl⟩
    · have h0 : b ≠ 0 := by rintro rfl; simp at hlt
      have hbelow : p.Below x c := .step hb h0 h2
      have hne : c ≠ x := by
        rintro rfl
        have := hr _ _ hb h0
        rcases below_rank hr h2 with h | h
        · rw [h] at this; omega
        · omega
      obtain ⟨U', e, hm, ha⟩ := collectSubtypes_spec hp hr hR fuel c U h3 (by omega)
      refine ⟨U', by simp [bind, Except.bind, hne, e], h.add h3 hm ha, fun y hy => (hm y).2 (.inl hy),
        fun _ _ _ => (hm x).2 (.inr hbelow), fun hn => absurd hlt (hn b hb)⟩
  · have hb : p.baseOf x = none := by
      cases hb : p.baseOf x with
      | none => rfl
      | some b => exact absurd ⟨b, hb⟩ hcls
    obtain ⟨f, rfl⟩ : ∃ f, fuel = f + 1 := ⟨fuel - 1, by omega⟩
    refine ⟨U, by simp [climbPast, hb, bind, Except.bind], h, fun _ h => h, by simp [hb], fun _ => rfl⟩

include hp hr hR in
theorem firstPasses_spec {fuel : Nat} (hf : R < fuel) : ∀ (l : List Idx) (U : List Idx), ClassSet p U →
    ∃ U', l.foldlM (firstPass p fuel) U = .ok U' ∧ ClassSet p U' ∧ (∀ y ∈ U, y ∈ U') ∧
      (∀ x ∈ l, ∀ b, p.baseOf x = some b → x.toNat < b.toNat → x ∈ U') ∧
      ((∀ x ∈ l, ∀ b, p.baseOf x = some b → ¬ x.toNat < b.toNat) → U' = U)
  | [], U, h => ⟨U, rfl, h, fun _ h => h, by simp, fun _ => rfl⟩
  | x :: l, U, h => by
    obtain ⟨U1, e1, c1, s1, m1, k1⟩ := firstPass_spec hp hr hR hf h x
    obtain ⟨U2, e2, c2, s2, m2, k2⟩ := firstPasses_spec hf l U1 c1
    refine ⟨U2, ?_, c2, fun y hy => s2 y (s1 y hy), ?_, ?_⟩
    · rw [List.foldlM_cons, e1]; exact e2
    · intro y hy b hb hlt
      rcases List.mem_cons.1 hy with rfl | hy
      · exact s2 _ (m1 b hb hlt)
      · exact m2 y hy b hb hlt
    · intro hn
      rw [k2 (fun y hy => hn y (by simp [hy])), k1 (hn x (by simp))]

/-- The state of the second pass: `U1` is the set after the first pass, `m` its least element, `pending` the
classes still to be looked at. -/
structure SecondInv (p : ConstantPool) (m : Idx) (U pending : List Idx) : Prop where
  set : ClassSet p U
  min : ∀ y ∈ U, m.toNat ≤ y.toNat
  bases : ∀ x ∈ U, x ∉ pending → ∀ b, p.baseOf x = some b → b.toNat ≤ m.toNat ∨ b ∈ U

include hp hr hR in
theorem secondPass_spec {fuel : Nat} (hf : R < fuel) {U1 : List Idx} {m : Idx} (hm1 : ∀ y ∈ U1, m.toNat ≤ y.toNat)
    (hfirst : ∀ x b, p.baseOf x = some b → x.toNat < b.toNat → x ∈ U1) {U pending : List Idx} {x : Idx}
    (h : SecondInv p m U (x :: pending)) (hx : x ∈ U) :
    ∃ U', secondPass p fuel m U x = .ok U' ∧ SecondInv p m U' pending ∧ ∀ y ∈ U, y ∈ U' := by
  unfold secondPass
  obtain ⟨b0, hb0⟩ := h.set.classes x hx
  have := hR _ _ hb0
  obtain ⟨c, hc, h1, h2⟩ := climbOutside_spec hp hr m U fuel x (by omega)
  rw [hc]
  rcases h2 with rfl | ⟨b, hb, h0, h3, h4, h5⟩
  · refine ⟨U, by simp [bind, Except.bind], ⟨h.set, h.min, ?_⟩, fun _ h => h⟩
    intro y hy hp' b hb
    by_cases hyx : y = c
    · subst hyx; exact h1 b hb
    · exact h.bases y hy (by simp [hyx, hp']) b hb
  · have hne : c ≠ x := by
      rintro rfl
      have := hr _ _ hb h0
      rcases below_rank hr h3 with h | h
      · rw [h] at this; omega
      · omega
    obtain ⟨U', e, hm, ha⟩ := collectSubtypes_spec hp hr hR fuel c U h5 (by omega)
    refine ⟨U', by simp [bind, Except.bind, hne, e], ⟨h.set.add h5 hm ha, ?_, ?_⟩, fun y hy => (hm y).2 (.inl hy)⟩
    · have hbelow : ∀ y z, p.Below y z → m.toNat < z.toNat → m.toNat ≤ y.toNat := by
        intro y z hy
        induction hy with
        | refl => intro h; omega
        | @step y b z hb h0 _ ih =>
          intro hz
          have := ih hz
          by_cases hlt : y.toNat < b.toNat
          · exact hm1 y (hfirst y b hb hlt)
          · omega
      intro y hy
      rcases (hm y).1 hy with hy | hy
      · exact h.min y hy
      · exact hbelow y c hy h4
    · intro y hy hpend b' hb'
      by_cases hyU : y ∈ U
      · by_cases hyx : y = x
        · subst hyx
          rw [hb] at hb'
          cases hb'
          exact .inr ((hm b).2 (.inr h3))
        · rcases h.bases y hyU (by simp [hyx, hpend]) b' hb' with h | h
          · exact .inl h
          · exact .inr ((hm b').2 (.inl h))
      · rcases (hm y).1 hy with hy | hy
        · exact absurd hy hyU
        · cases hy with
          | refl =>
            rcases h1 b' hb' with h | h
            · exact .inl h
            · exact .inr ((hm b').2 (.inl h))
          | step hb2 h02 h2 =>
            rw [hb2] at hb'
            cases hb'
            exact .inr ((hm _).2 (.inr h2))

include hp hr hR in
theorem secondPasses_spec {fuel : Nat} (hf : R < fuel) {U1 : List Idx} {m : Idx} (hm1 : ∀ y ∈ U1, m.toNat ≤ y.toNat)
    (hfirst : ∀ x b, p.baseOf x = some b → x.toNat < b.toNat → x ∈ U1) : ∀ (l U : List Idx), SecondInv p m U l →
    (∀ x ∈ l, x ∈ U) → ∃ U', l.foldlM (secondPass p fuel m) U = .ok U' ∧ SecondInv p m U' [] ∧ ∀ y ∈ U, y ∈ U'
  | [], U, h, _ => ⟨U, rfl, h, fun _ h => h⟩
  | x :: l, U, h, hl => by
    obtain ⟨U', e1, h1, s1⟩ := secondPass_spec hp hr hR hf hm1 hfirst h (hl x (by simp))
    obtain ⟨U2, e2, h2, s2⟩ := secondPasses_spec hf hm1 hfirst l U' h1 (fun y hy => s1 y (hl y (by simp [hy])))
    refine ⟨U2, ?_, h2, fun y hy => s2 y (s1 y hy)⟩
    rw [List.foldlM_cons, e1]; exact e2

/-- What the moved classes satisfy. -/
structure MoveSet (p : ConstantPool) (U : List Idx) : Prop where
  asc : Ascending U
  classes : ∀ x ∈ U, ∃ b, p.baseOf x = some b
  /-- subclasses of moved classes are moved -/
  closed : ∀ x b, p.baseOf x = some b → b ≠ 0 → b ∈ U → x ∈ U
  /-- a class that is not moved is behind its base -/
  fine : ∀ x b, p.baseOf x = some b → b ≠ 0 → x ∉ U → b.toNat < x.toNat
  /-- a base that is not moved is before all that are moved -/
  outside : ∀ x ∈ U, ∀ b, p.baseOf x = some b → b ∉ U → ∀ y ∈ U, b.toNat < y.toNat

include hp hr hR in
theorem unsortedClasses_spec {fuel : Nat} (hf : R < fuel) : ∃ U, unsortedClasses p fuel = .ok U ∧ MoveSet p U ∧
    (p.BasesFirst → U = []) := by
  obtain ⟨U1, e1, c1, _, m1, k1⟩ := firstPasses_spec hp hr hR hf (p.indexed.map (·.1)) []
    ⟨List.Pairwise.nil, by simp, by simp⟩
  have hfirst : ∀ x b, p.baseOf x = some b → x.toNat < b.toNat → x ∈ U1 := by
    intro x b hb hlt
    refine m1 x ?_ b hb hlt
    obtain ⟨d, c, h1, h2, h3⟩ := baseOf_definition hb
    refine List.mem_map.2 ⟨(x, d), (C12_iteration p hp.size x d).2 ⟨?_, h1⟩, rfl⟩
    rintro rfl
    rw [hp.zero] at hb; cases hb
  have hne : ∀ x b, p.baseOf x = some b → b ≠ 0 → x.toNat ≠ b.toNat := by
    intro x b hb h0 he
    have := hr x b hb h0
    rw [BitVec.eq_of_toNat_eq he] at this
    omega
  have hempty : p.BasesFirst → U1 = [] := by
    intro h
    refine k1 ?_
    intro x _ b hb hlt
    have := h x b hb (by rintro rfl; simp at hlt)
    omega
  unfold unsortedClasses
  rw [e1]
  cases U1 with
  | nil =>
    refine ⟨[], rfl, ⟨List.Pairwise.nil, by simp, by simp, ?_, by simp⟩, fun _ => rfl⟩
    intro x b hb h0 _
    rcases Nat.lt_trichotomy b.toNat x.toNat with h | h | h
    · exact h
    · exact absurd h.symm (hne x b hb h0)
    · cases hfirst x b hb h
  | cons m rest =>
    have hm1 : ∀ y ∈ m :: rest, m.toNat ≤ y.toNat := by
      intro y hy
      have := List.pairwise_cons.1 c1.asc
      rcases List.mem_cons.1 hy with rfl | hy
      · exact Nat.le_refl _
      · exact Nat.le_of_lt (this.1 y hy)
    obtain ⟨U, e2, h2, s2⟩ := secondPasses_spec hp hr hR hf hm1 hfirst (m :: rest) (m :: rest)
      ⟨c1, hm1, fun x hx hn => absurd hx hn⟩ (fun _ h => h)
    refine ⟨U, e2, ⟨h2.set.asc, h2.set.classes, ?_, ?_, ?_⟩, fun h => by cases hempty h⟩
    · intro x b hb h0 hbU
      exact h2.set.closed b hbU x (.step hb h0 (.refl _))
    · intro x b hb h0 hx
      rcases Nat.lt_trichotomy b.toNat x.toNat with h | h | h
      · exact h
      · exact absurd h.symm (hne x b hb h0)
      · exact absurd (s2 x (hfirst x b hb h)) hx
    · intro x hx b hb hbU y hy
      rcases h2.bases x hx (by simp) b hb with h | h
      · have hmy := h2.min y hy
        rcases Nat.lt_or_ge b.toNat y.toNat with h' | h'
        · exact h'
        · have : b.toNat = m.toNat := by omega
          rw [BitVec.eq_of_toNat_eq this] at hbU
          exact absurd (s2 m (by simp)) hbU
      · exact absurd h hbU

/-! ### The new order -/

include hp hr in
theorem supertypeCount_spec : ∀ (fuel : Nat) (i : Idx), (i = 0 ∧ 0 < fuel) ∨ ((∃ b, p.baseOf i = some b) ∧ r i + 1 < fuel) →
    ∃ n, ∀ fuel', fuel ≤ fuel' → supertypeCount p fuel' i = .ok n
  | 0, i, h => by omega
  | fuel + 1, i, h => by
    by_cases h0 : i = 0
    · refine ⟨0, fun f hf => ?_⟩
      obtain ⟨f, rfl⟩ : ∃ g, f = g + 1 := ⟨f - 1, by omega⟩
      rw [supertypeCount, if_pos h0]
    · rcases h with ⟨rfl, _⟩ | ⟨⟨b, hb⟩, hf⟩
      · exact absurd rfl h0
      · obtain ⟨n, hn⟩ := supertypeCount_spec fuel b (by
          by_cases hb0 : b = 0
          · exact .inl ⟨hb0, by omega⟩
          · have := hr i b hb hb0
            exact .inr ⟨hp.base i b hb hb0, by omega⟩)
        refine ⟨n + 1, fun f hf => ?_⟩
        obtain ⟨f, rfl⟩ : ∃ g, f = g + 1 := ⟨f - 1, by omega⟩
        rw [supertypeCount, if_neg h0, hb]
        simp only [hn f (by omega)]
        rfl

theorem mapM_ok {f : α → Except ε β} {g : α → β} : ∀ {l : List α}, (∀ x ∈ l, f x = .ok (g x)) → l.mapM f = .ok (l.map g)
  | [], _ => rfl
  | x :: l, h => by
    rw [List.mapM_cons, h x (by simp), mapM_ok (l := l) (fun y hy => h y (by simp [hy]))]
    rfl

/-- The number of supertypes of a class. -/
def classDepth (p : ConstantPool) (fuel : Nat) (i : Idx) : Nat :=
  match supertypeCount p fuel i with
  | .ok n => n
  | .error _ => 0

include hp hr hR in
theorem classDepth_spec {fuel : Nat} (hf : R + 1 < fuel) {i : Idx} (hi : ∃ b, p.baseOf i = some b) :
    supertypeCount p fuel i = .ok (classDepth p fuel i) ∧
    ∀ b, p.baseOf i = some b → b ≠ 0 → classDepth p fuel b < classDepth p fuel i := by
  obtain ⟨f, rfl⟩ : ∃ g, fuel = g + 1 := ⟨fuel - 1, by omega⟩
  obtain ⟨b0, hb0⟩ := hi
  have h1 := hR i b0 hb0
  obtain ⟨n, hn⟩ := supertypeCount_spec hp hr (f + 1) i (.inr ⟨⟨b0, hb0⟩, by omega⟩)
  have hn1 := hn (f + 1) (Nat.le_refl _)
  refine ⟨by unfold classDepth; rw [hn1], ?_⟩
  intro b hb h0
  have h2 := hr i b hb h0
  obtain ⟨n', hn'⟩ := supertypeCount_spec hp hr f b (.inr ⟨hp.base i b hb h0, by omega⟩)
  have hi0 : i ≠ 0 := by rintro rfl; rw [hp.zero] at hb; cases hb
  have e1 := hn' f (Nat.le_refl _)
  have e2 := hn' (f + 1) (by omega)
  have e3 : supertypeCount p (f + 1) i = .ok (n' + 1) := by
    rw [supertypeCount, if_neg hi0, hb]
    simp only [e1]
    rfl
  unfold classDepth
  rw [e2, e3]
  simp

include hp hr hR in
theorem sortedClasses_spec {fuel : Nat} (hf : R + 1 < fuel) {U : List Idx} (hU : ∀ x ∈ U, ∃ b, p.baseOf x = some b) :
    ∃ S, sortedClasses p fuel U = .ok S ∧ S.Perm U ∧
      S.Pairwise fun a b => classDepth p fuel a ≤ classDepth p fuel b := by
  unfold sortedClasses
  have e := mapM_ok (l := U) (f := fun i => do
    let n ← supertypeCount p fuel i
    (.ok (n, i) : Except CleanupErr (Nat × Idx))) (g := fun i => (classDepth p fuel i, i)) (by
      intro x hx
      rw [(classDepth_spec hp hr hR hf (hU x hx)).1]
      rfl)
  rw [e]
  refine ⟨_, rfl, ?_, ?_⟩
  · have := (List.mergeSort_perm (U.map fun i => (classDepth p fuel i, i)) fun a b => decide (a.1 ≤ b.1)).map (·.2)
    rw [List.map_map] at this
    simpa [Function.comp_def] using this
  · rw [List.pairwise_map]
    have hs := List.pairwise_mergeSort (le := fun (a b : Nat × Idx) => decide (a.1 ≤ b.1))
      (by intro a b c h1 h2; simp at h1 h2 ⊢; omega) (by intro a b; simp; omega)
      (U.map fun i => (classDepth p fuel i, i))
    have hm : ∀ x ∈ (U.map fun i => (classDepth p fuel i, i)).mergeSort (fun a b => decide (a.1 ≤ b.1)),
        x.1 = classDepth p fuel x.2 := by
      intro x hx
      rw [List.mem_mergeSort] at hx
      obtain ⟨i, _, rfl⟩ := List.mem_map.1 hx
      rfl
    refine hs.imp_of_mem ?_
    intro a b ha hb h
    rw [← hm a ha, ← hm b hb]
    exact of_decide_eq_true h

end

/-! ### Moving the definitions -/

theorem AMap.ofPairs_get [DecidableEq K] : ∀ (l : List (K × V)) (m : AMap K V) (k : K),
    (k ∉ l.map (·.1) → (l.foldl (fun m kv => m.insert kv.1 kv.2) m).get k = m.get k) ∧
    ((l.map (·.1)).Nodup → ∀ v, (k, v) ∈ l → (l.foldl (fun m kv => m.insert kv.1 kv.2) m).get k = some v)
  | [], m, k => ⟨fun _ => rfl, fun _ _ h => by cases h⟩
  | (k', v') :: l, m, k => by
    obtain ⟨h1, h2⟩ := AMap.ofPairs_get l (m.insert k' v') k
    constructor
    · intro h
      simp only [List.map_cons, List.mem_cons, not_or] at h
      rw [List.foldl_cons, h1 h.2, AMap.get_insert_ne _ _ h.1]
    · intro hn v hv
      rw [List.map_cons, List.nodup_cons] at hn
      rw [List.foldl_cons]
      rcases List.mem_cons.1 hv with h | h
      · cases h
        rw [h1 hn.1, AMap.get_insert_self]
      · exact h2 hn.2 v h

theorem multiMap_zip {a b : List Idx} (hl : a.length = b.length) (hn : a.Nodup) :
    (∀ (k : Nat) (x y : Idx), a[k]? = some x → b[k]? = some y → multiMap (AMap.ofPairs (a.zip b)) x = y) ∧
    ∀ x, x ∉ a → multiMap (AMap.ofPairs (a.zip b)) x = x := by
  have hmap : (a.zip b).map (·.1) = a := List.map_fst_zip (by omega)
  constructor
  · intro k x y hx hy
    unfold multiMap AMap.ofPairs
    rw [(AMap.ofPairs_get _ _ _).2 (by rw [hmap]; exact hn) y ?_]
    · rfl
    · rw [List.mem_iff_getElem?]
      refine ⟨k, ?_⟩
      rw [List.getElem?_zip_eq_some]
      exact ⟨hx, hy⟩
  · intro x hx
    unfold multiMap AMap.ofPairs
    rw [(AMap.ofPairs_get _ _ _).1 (by rw [hmap]; exact hx)]
    rfl

theorem Ascending.nodup {U : List Idx} (h : Ascending U) : U.Nodup :=
  h.imp fun h he => by rw [he] at h; omega

theorem putClasses_spec : ∀ (ds : List Definition) (U : List Idx) (p : ConstantPool), ds.length = U.length → U.Nodup →
    (∀ u ∈ U, u.toNat < p.definitions.length) →
    ∃ p', (ds.zip U).foldlM putClass p = .ok p' ∧ p'.definitions.length = p.definitions.length ∧
      p'.names = p.names ∧ p'.tweakdbIds = p.tweakdbIds ∧ p'.resources = p.resources ∧ p'.strings = p.strings ∧
      (∀ (k : Nat) (d : Definition) (u : Idx), ds[k]? = some d → U[k]? = some u → p'.definition u = some d) ∧
      ∀ i, i ∉ U → p'.definition i = p.definition i
  | [], [], p, _, _, _ => ⟨p, rfl, rfl, rfl, rfl, rfl, rfl, by simp, fun _ _ => rfl⟩
  | [], _ :: _, _, h, _, _ => by simp at h
  | _ :: _, [], _, h, _, _ => by simp at h
  | d :: ds, u :: U, p, hl, hn, hlt => by
    simp only [List.length_cons, Nat.add_right_cancel_iff] at hl
    rw [List.nodup_cons] at hn
    have hu := hlt u (by simp)
    obtain ⟨p', e, h1, h2, h3, h4, h5, h6, h7⟩ := putClasses_spec ds U { p with definitions := p.definitions.set u.toNat d } hl hn.2
      (by intro v hv; simpa using hlt v (by simp [hv]))
    refine ⟨p', ?_, by simpa using h1, h2, h3, h4, h5, ?_, ?_⟩
    · rw [List.zip_cons_cons, List.foldlM_cons]
      have : putClass p (d, u) = .ok { p with definitions := p.definitions.set u.toNat d } := by
        unfold putClass ConstantPool.putDefinition
        rw [if_pos hu]
      rw [this]
      exact e
    · intro k d' u' hd hu'
      cases k with
      | zero =>
        simp only [List.getElem?_cons_zero, Option.some.injEq] at hd hu'
        subst hd hu'
        rw [h7 _ hn.1]
        unfold ConstantPool.definition
        simp [hu]
      | succ k =>
        simp only [List.getElem?_cons_succ] at hd hu'
        exact h6 k d' u' hd hu'
    · intro i hi
      simp only [List.mem_cons, not_or] at hi
      rw [h7 i hi.2]
      unfold ConstantPool.definition
      have : u.toNat ≠ i.toNat := fun he => hi.1 (BitVec.eq_of_toNat_eq he.symm)
      simp [this]

theorem Instr.mapRefs_id (i : Instr L) : i.mapRefs id id = i := by
  cases i <;> rfl

theorem Definition.mapRefs_id (d : Definition) : d.mapRefs id id = d := by
  obtain ⟨n, par, u1, u2, u3, v⟩ := d
  cases v with
  | Function f =>
    have : f.code.map (fun i => i.mapRefs id id) = f.code := by
      conv => rhs; rw [← List.map_id f.code]
      exact List.map_congr_left fun i _ => Instr.mapRefs_id i
    exact congrArg (fun c => (⟨n, par, u1, u2, u3, .Function { f with code := c }⟩ : Definition)) this
  | _ => rfl

/-- Specification: the pool `p'` is the pool `p` with its classes renumbered by `σ`: only classes change their
index, no two get the same one, and every definition is found at its new index, unchanged but for the classes
it mentions, which are renumbered as well. -/
structure Renumbered (p p' : ConstantPool) (σ : Idx → Idx) : Prop where
  inverse : ∃ τ : Idx → Idx, (∀ i, τ (σ i) = i) ∧ ∀ i, σ (τ i) = i
  fixed : ∀ i, p.baseOf i = none → σ i = i
  size : p'.definitions.length = p.definitions.length
  texts : p'.names = p.names ∧ p'.tweakdbIds = p.tweakdbIds ∧ p'.resources = p.resources ∧ p'.strings = p.strings
  found : ∀ i, p'.definition (σ i) = (p.definition i).map fun d => d.mapRefs σ id

theorem Renumbered.baseOf {p p' : ConstantPool} {σ : Idx → Idx} (h : Renumbered p p' σ) (i : Idx) :
    p'.baseOf (σ i) = (p.baseOf i).map σ := by
  have hf := h.found i
  cases hb : p.baseOf i with
  | some b =>
    obtain ⟨d, c, h1, h2, h3⟩ := baseOf_definition hb
    rw [h1] at hf
    have hv : (d.mapRefs σ id).value = .Class { c with base := σ c.base } := by simp [Definition.mapRefs, h2]
    rw [definition_baseOf hf hv, ← h3]
    rfl
  | none =>
    cases hb' : p'.baseOf (σ i) with
    | none => rfl
    | some b' =>
      obtain ⟨d', c', h1, h2, h3⟩ := baseOf_definition hb'
      rw [hf] at h1
      cases hd : p.definition i with
      | none => rw [hd] at h1; cases h1
      | some d =>
        rw [hd] at h1
        simp only [Option.map_some, Option.some.injEq] at h1
        cases hv : d.value with
        | Class c => rw [definition_baseOf hd hv] at hb; cases hb
        | _ =>
          rw [← h1] at h2
          simp only [Definition.mapRefs, hv] at h2
          first | cases h2 | (rw [hv] at h2; cases h2)

theorem moved_spec {p : ConstantPool} {U S : List Idx} {key : Idx → Nat} (hU : MoveSet p U) (hS : S.Perm U)
    (hkey : S.Pairwise fun a b => key a ≤ key b)
    (hdepth : ∀ x ∈ U, ∀ b ∈ U, p.baseOf x = some b → b ≠ 0 → key b < key x) (σ : Idx → Idx)
    (hσ1 : ∀ (k : Nat) (x y : Idx), S[k]? = some x → U[k]? = some y → σ x = y) (hσ2 : ∀ x, x ∉ U → σ x = x) :
    ∀ i b, p.baseOf i = some b → b ≠ 0 → (σ b).toNat < (σ i).toNat := by
  have hpos : ∀ x ∈ U, ∃ (k : Nat) (y : Idx), S[k]? = some x ∧ U[k]? = some y := by
    intro x hx
    obtain ⟨k, hk⟩ := List.mem_iff_getElem?.1 (hS.mem_iff.2 hx)
    have hlt : k < S.length := by
      rcases Nat.lt_or_ge k S.length with h | h
      · exact h
      · rw [List.getElem?_eq_none h] at hk; cases hk
    rw [hS.length_eq] at hlt
    exact ⟨k, U[k], hk, List.getElem?_eq_getElem hlt⟩
  intro i b hb h0
  by_cases hi : i ∈ U
  · obtain ⟨k, y, hk, hy⟩ := hpos i hi
    rw [hσ1 k i y hk hy]
    by_cases hbU : b ∈ U
    · obtain ⟨k', y', hk', hy'⟩ := hpos b hbU
      rw [hσ1 k' b y' hk' hy']
      have hlt := hdepth i hi b hbU hb h0
      have hkk : k' < k := by
        rcases Nat.lt_trichotomy k' k with h | h | h
        · exact h
        · subst h
          rw [hk] at hk'
          cases hk'
          omega
        · obtain ⟨h1, e1⟩ := List.getElem?_eq_some_iff.1 hk
          obtain ⟨h2, e2⟩ := List.getElem?_eq_some_iff.1 hk'
          have := List.pairwise_iff_getElem.1 hkey k k' h1 h2 h
          rw [e1, e2] at this
          omega
      obtain ⟨h1, e1⟩ := List.getElem?_eq_some_iff.1 hy
      obtain ⟨h2, e2⟩ := List.getElem?_eq_some_iff.1 hy'
      have := List.pairwise_iff_getElem.1 hU.asc k' k h2 h1 hkk
      rw [e1, e2] at this
      exact this
    · rw [hσ2 b hbU]
      exact hU.outside i hi b hb hbU y (List.mem_iff_getElem?.2 ⟨k, hy⟩)
  · have hbU : b ∉ U := fun h => hi (hU.closed i b hb h0 h)
    rw [hσ2 i hi, hσ2 b hbU]
    exact hU.fine i b hb h0 hi

theorem rank_bound (p : ConstantPool) (r : Idx → Nat) : ∃ R, ∀ i b, p.baseOf i = some b → r i ≤ R := by
  have : ∀ n : Nat, ∃ R, ∀ i : Idx, i.toNat < n → r i ≤ R := by
    intro n
    induction n with
    | zero => exact ⟨0, fun i h => by omega⟩
    | succ n ih =>
      obtain ⟨R, hR⟩ := ih
      refine ⟨R + r (BitVec.ofNat 32 n), fun i hi => ?_⟩
      rcases Nat.lt_or_ge i.toNat n with h | h
      · exact Nat.le_trans (hR i h) (Nat.le_add_right _ _)
      · have : i = BitVec.ofNat 32 n := by
          apply BitVec.eq_of_toNat_eq
          rw [BitVec.toNat_ofNat, Nat.mod_eq_of_lt] <;> omega
        rw [← this]
        omega
  obtain ⟨R, hR⟩ := this (2 ^ 32)
  exact ⟨R, fun i _ _ => hR i i.isLt⟩

/-! ### Classes that stay -/

theorem BasesFirstBelow.above {p : ConstantPool} {n : Nat} (h : p.BasesFirstBelow n) {x b : Idx} (hb : p.baseOf x = some b) (hn : n ≤ b.toNat)
    (h0 : b ≠ 0) : n ≤ x.toNat := by
  rcases Nat.lt_or_ge x.toNat n with hx | hx
  · have := h x b hb hx h0
    omega
  · exact hx

theorem foldlM_keeps {α β ε : Type} {P : β → Prop} {f : β → α → Except ε β} : ∀ {l : List α} {b b' : β},
    (∀ a ∈ l, ∀ b b', P b → f b a = .ok b' → P b') → P b → l.foldlM f b = .ok b' → P b'
  | [], b, b', _, hb, h => by cases h; exact hb
  | a :: l, b, b', hf, hb, h => by
    rw [List.foldlM_cons] at h
    cases hc : f b a with
    | error e => rw [hc] at h; cases h
    | ok c =>
      rw [hc] at h
      exact foldlM_keeps (fun a' ha' => hf a' (List.mem_cons_of_mem _ ha')) (hf a List.mem_cons_self b c hb hc) h

theorem collectSubtypes_above {p : ConstantPool} {n : Nat} (hp : p.ClassesOk) (h : p.BasesFirstBelow n) : ∀ (fuel : Nat) {i : Idx} {acc acc' : List Idx},
    n ≤ i.toNat → (∀ y ∈ acc, n ≤ y.toNat) → collectSubtypes p fuel i acc = .ok acc' → ∀ y ∈ acc', n ≤ y.toNat
  | 0, _, _, _, _, _, hc => by cases hc
  | fuel + 1, i, acc, acc', hi, ha, hc => by
    rw [collectSubtypes] at hc
    refine foldlM_keeps (P := fun l => ∀ y ∈ l, n ≤ y.toNat) (fun s hs b b' hb hf => ?_) ?_ hc
    · obtain ⟨h1, h2⟩ := (mem_subclasses hp s i).1 hs
      exact collectSubtypes_above hp h fuel (BasesFirstBelow.above h h1 hi h2) hb hf
    · intro y hy
      rcases (setInsert_mem i y acc).1 hy with rfl | hy
      · exact hi
      · exact ha y hy

theorem climbPast_above {p : ConstantPool} {x : Idx} : ∀ (fuel : Nat) {cur c : Idx}, climbPast p x fuel cur = .ok c → c = cur ∨ x.toNat < c.toNat
  | 0, _, _, h => by cases h
  | fuel + 1, cur, c, h => by
    rw [climbPast] at h
    split at h
    · split at h
      · next hlt =>
        rcases climbPast_above fuel h with rfl | h1
        · exact .inr hlt
        · exact .inr h1
      · cases h; exact .inl rfl
    · cases h; exact .inl rfl

theorem climbOutside_above {p : ConstantPool} {m : Idx} {U : List Idx} : ∀ (fuel : Nat) {cur c : Idx}, climbOutside p m U fuel cur = .ok c →
    c = cur ∨ m.toNat < c.toNat
  | 0, _, _, h => by cases h
  | fuel + 1, cur, c, h => by
    rw [climbOutside] at h
    split at h
    · split at h
      · next hlt =>
        rcases climbOutside_above fuel h with rfl | h1
        · exact .inr hlt.1
        · exact .inr h1
      · cases h; exact .inl rfl
    · cases h; exact .inl rfl

/-- No class is moved that comes before all that are out of order. -/
theorem unsortedClasses_above {p : ConstantPool} {n : Nat} (hp : p.ClassesOk) (h : p.BasesFirstBelow n) {fuel : Nat} {U : List Idx}
    (hU : unsortedClasses p fuel = .ok U) : ∀ y ∈ U, n ≤ y.toNat := by
  unfold unsortedClasses at hU
  cases h1 : (p.indexed.map (·.1)).foldlM (firstPass p fuel) [] with
  | error e => rw [h1] at hU; cases hU
  | ok U1 =>
    rw [h1] at hU
    have hU1 : ∀ y ∈ U1, n ≤ y.toNat := by
      refine foldlM_keeps (P := fun l : List Idx => ∀ y ∈ l, n ≤ y.toNat) (fun x _ b b' hb hf => ?_) (by simp) h1
      unfold firstPass at hf
      cases hc : climbPast p x fuel x with
      | error e => rw [hc] at hf; cases hf
      | ok c =>
        rw [hc] at hf
        simp only [bind, Except.bind] at hf
        split at hf
        · next hne =>
          have hx : n ≤ x.toNat := by
            rcases Nat.lt_or_ge x.toNat n with hx | hx
            · exfalso
              cases fuel with
              | zero => cases hc
              | succ fuel =>
                rw [climbPast] at hc
                split at hc
                · next b hb =>
                  split at hc
                  · next hlt =>
                    have := h x b hb hx (by rintro rfl; simp at hlt)
                    omega
                  · cases hc; exact hne rfl
                · cases hc; exact hne rfl
            · exact hx
          rcases climbPast_above fuel hc with e | hlt
          · exact absurd e hne
          · exact collectSubtypes_above hp h fuel (by omega) hb hf
        · cases hf; exact hb
    cases U1 with
    | nil => cases hU; simp
    | cons m rest =>
      have hm : n ≤ m.toNat := hU1 m (by simp)
      refine foldlM_keeps (P := fun l : List Idx => ∀ y ∈ l, n ≤ y.toNat) (fun x _ b b' hb hf => ?_) hU1 hU
      unfold secondPass at hf
      cases hc : climbOutside p m b fuel x with
      | error e => rw [hc] at hf; cases hf
      | ok c =>
        rw [hc] at hf
        simp only [bind, Except.bind] at hf
        split at hf
        · next hne =>
          rcases climbOutside_above fuel hc with e | hlt
          · exact absurd e hne
          · exact collectSubtypes_above hp h fuel (by omega) hb hf
        · cases hf; exact hb

theorem SourceRef.map_move_id (l : List SourceRef) : l.map (·.move id) = l := (List.map_congr_left fun _ _ => rfl).trans (List.map_id l)

/-- C37: for every pool whose class hierarchy has no cycle, the reordering comes to an end, and then every class
is stored behind its base class. The pool is the old one with its classes renumbered, and so are the references
to source. Classes before all those that are out of order keep their indexes. -/
theorem C37_classes_follow_their_bases {p : ConstantPool} (hp : p.ClassesOk) (ha : p.AcyclicClasses) (refs : List SourceRef) :
    ∃ N, ∀ fuel, N ≤ fuel → ∃ p' σ, cleanupPool fuel p refs = .ok (p', refs.map (·.move σ)) ∧ p'.BasesFirst ∧ Renumbered p p' σ ∧
      (p.BasesFirst → p' = p ∧ σ = id) ∧ ∀ n, p.BasesFirstBelow n → ∀ i : Idx, i.toNat < n → σ i = i := by
  obtain ⟨r, hr⟩ := ha
  obtain ⟨R, hR⟩ := rank_bound p r
  refine ⟨R + 2, fun fuel hf => ?_⟩
  obtain ⟨U, eU, hU, hUe⟩ := unsortedClasses_spec hp hr hR (fuel := fuel) (by omega)
  obtain ⟨S, eS, hS, hkey⟩ := sortedClasses_spec hp hr hR (fuel := fuel) (by omega) hU.classes
  have hSn : S.Nodup := hS.nodup_iff.2 hU.asc.nodup
  have hlen : S.length = U.length := hS.length_eq
  obtain ⟨m1, m2⟩ := multiMap_zip hlen hSn
  obtain ⟨m3, m4⟩ := multiMap_zip hlen.symm hU.asc.nodup
  have m2' : ∀ x, x ∉ U → multiMap (AMap.ofPairs (S.zip U)) x = x := fun x hx => m2 x fun h => hx (hS.mem_iff.1 h)
  have m4' : ∀ x, x ∉ S → multiMap (AMap.ofPairs (U.zip S)) x = x := fun x hx => m4 x fun h => hx (hS.mem_iff.2 h)
  have hpos : ∀ (A B : List Idx), A.length = B.length → ∀ x ∈ A, ∃ (k : Nat) (y : Idx), A[k]? = some x ∧ B[k]? = some y := by
    intro A B hl x hx
    obtain ⟨k, hk⟩ := List.mem_iff_getElem?.1 hx
    obtain ⟨h, _⟩ := List.getElem?_eq_some_iff.1 hk
    exact ⟨k, B[k], hk, List.getElem?_eq_getElem (hl ▸ h)⟩
  have hdefs : ∀ x ∈ U, ∃ d, p.definition x = some d := by
    intro x hx
    obtain ⟨b, hb⟩ := hU.classes x hx
    obtain ⟨d, _, h, _⟩ := baseOf_definition hb
    exact ⟨d, h⟩
  have eD := mapM_ok (l := S) (f := cloneDef p) (g := fun i => (p.definition i).getD .default) (by
    intro x hx
    obtain ⟨d, hd⟩ := hdefs x (hS.mem_iff.1 hx)
    unfold cloneDef
    rw [hd]
    rfl)
  obtain ⟨p1, e1, s1, t1, t2, t3, t4, f1, f2⟩ := putClasses_spec (S.map fun i => (p.definition i).getD .default) U p
    (by simp [hlen]) hU.asc.nodup (by
      intro u hu
      obtain ⟨d, hd⟩ := hdefs u hu
      unfold ConstantPool.definition at hd
      exact (List.getElem?_eq_some_iff.1 hd).1)
  have hrun : cleanupPool fuel p refs = if U = [] then .ok (p1, refs)
      else .ok (p1.mapRefs (multiMap (AMap.ofPairs (S.zip U))) id, refs.map (·.move (multiMap (AMap.ofPairs (S.zip U))))) := by
    unfold cleanupPool
    rw [eU]
    simp only [bind, Except.bind]
    rw [eS]
    simp only []
    rw [eD]
    simp only []
    rw [e1]
  have hbases := moved_spec hU hS hkey (fun x hx b _ hb h0 =>
    (classDepth_spec hp hr hR (by omega) (hU.classes x hx)).2 b hb h0) (multiMap (AMap.ofPairs (S.zip U))) m1 m2'
  have hfound : ∀ i, p1.definition (multiMap (AMap.ofPairs (S.zip U)) i) = p.definition i := by
    intro i
    by_cases hi : i ∈ U
    · obtain ⟨k, y, hk, hy⟩ := hpos S U hlen i (hS.mem_iff.2 hi)
      obtain ⟨d, hd⟩ := hdefs i hi
      rw [m1 k i y hk hy, f1 k d y (by simp [hk, hd]) hy, hd]
    · rw [m2' i hi, f2 i hi]
  have hinv : ∃ τ : Idx → Idx, (∀ i, τ (multiMap (AMap.ofPairs (S.zip U)) i) = i) ∧
      ∀ i, multiMap (AMap.ofPairs (S.zip U)) (τ i) = i := by
    refine ⟨multiMap (AMap.ofPairs (U.zip S)), fun i => ?_, fun i => ?_⟩
    · by_cases hi : i ∈ U
      · obtain ⟨k, y, hk, hy⟩ := hpos S U hlen i (hS.mem_iff.2 hi)
        rw [m1 k i y hk hy, m3 k y i hy hk]
      · rw [m2' i hi, m4 i hi]
    · by_cases hi : i ∈ U
      · obtain ⟨k, y, hk, hy⟩ := hpos U S hlen.symm i hi
        rw [m3 k i y hk hy, m1 k y i hy hk]
      · rw [m4 i hi, m2' i hi]
  by_cases hnil : U = []
  · have hid : multiMap (AMap.ofPairs (S.zip U)) = id := funext fun x => m2' x (by rw [hnil]; simp)
    rw [hid] at hfound hbases
    have hpp : p1 = p := by
      have : p1.definitions = p.definitions := by
        apply List.ext_getElem?
        intro k
        rcases Nat.lt_or_ge k (2 ^ 32) with h | h
        · have := hfound (BitVec.ofNat 32 k)
          simp only [ConstantPool.definition, id, BitVec.toNat_ofNat] at this
          rwa [Nat.mod_eq_of_lt h] at this
        · have hsz := hp.size
          rw [List.getElem?_eq_none (by omega), List.getElem?_eq_none (by omega)]
      cases p1; cases p
      simp only [ConstantPool.mk.injEq]
      simp only at t1 t2 t3 t4 this
      exact ⟨t1, t2, t3, t4, this⟩
    subst hpp
    refine ⟨p1, id, by rw [hrun, if_pos hnil, SourceRef.map_move_id], hbases, ⟨⟨id, fun _ => rfl, fun _ => rfl⟩, fun _ _ => rfl, rfl,
      ⟨rfl, rfl, rfl, rfl⟩, fun i => ?_⟩, fun _ => ⟨rfl, rfl⟩, fun _ _ _ _ => rfl⟩
    have : (fun d : Definition => d.mapRefs id id) = id := funext Definition.mapRefs_id
    rw [this, Option.map_id]
    rfl
  · have hren : Renumbered p (p1.mapRefs (multiMap (AMap.ofPairs (S.zip U))) id) (multiMap (AMap.ofPairs (S.zip U))) := by
      refine ⟨hinv, ?_, by simp [ConstantPool.mapRefs, s1], ⟨t1, t2, t3, t4⟩, ?_⟩
      · intro i hi
        refine m2' i fun h => ?_
        obtain ⟨b, hb⟩ := hU.classes i h
        rw [hi] at hb; cases hb
      · intro i
        rw [← hfound i]
        simp [ConstantPool.definition, ConstantPool.mapRefs]
    refine ⟨_, _, by rw [hrun, if_neg hnil], ?_, hren, fun h => absurd (hUe h) hnil, fun n hn i hi => m2' i fun h => by
      have := unsortedClasses_above hp hn eU i h
      omega⟩
    intro j b' hb' h0'
    obtain ⟨τ, _, hτ⟩ := hinv
    have := hren.baseOf (τ j)
    rw [hτ, hb'] at this
    cases hb : p.baseOf (τ j) with
    | none => rw [hb] at this; cases this
    | some b =>
      rw [hb] at this
      simp only [Option.map_some, Option.some.injEq] at this
      have h0 : b ≠ 0 := by
        rintro rfl
        apply h0'
        rw [this]
        exact hren.fixed 0 hp.zero
      have := hbases (τ j) b hb h0
      rw [hτ] at this
      simp_all

/-! ### A pool that has to be reordered -/

namespace CleanupDemo

def cls (base : Idx) : Definition :=
  { Definition.default with value := .Class { visibility := .pub, flags := 0, base, functions := [], fields := [], overrides := [] } }

/-- The first class derives from the second, the third from the first. -/
def pool : ConstantPool :=
  { names := .empty, tweakdbIds := .empty, resources := .empty, strings := .empty,
    definitions := [.default, cls 2, cls 0, cls 1] }

theorem index {i b : Idx} (h : pool.baseOf i = some b) : (i = 1 ∧ b = 2) ∨ (i = 2 ∧ b = 0) ∨ (i = 3 ∧ b = 1) := by
  have hlt : i.toNat < 4 := by
    obtain ⟨d, _, hd, _⟩ := baseOf_definition h
    exact (List.getElem?_eq_some_iff.1 hd).1
  have : i = 0 ∨ i = 1 ∨ i = 2 ∨ i = 3 := by
    have h0 : i.toNat = 0 ∨ i.toNat = 1 ∨ i.toNat = 2 ∨ i.toNat = 3 := by omega
    rcases h0 with h | h | h | h
    · exact .inl (BitVec.eq_of_toNat_eq h)
    · exact .inr (.inl (BitVec.eq_of_toNat_eq h))
    · exact .inr (.inr (.inl (BitVec.eq_of_toNat_eq h)))
    · exact .inr (.inr (.inr (BitVec.eq_of_toNat_eq h)))
  rcases this with rfl | rfl | rfl | rfl
  · have : pool.baseOf 0 = none := by decide
    rw [this] at h; cases h
  · have : pool.baseOf 1 = some 2 := by decide
    rw [this] at h; cases h; simp
  · have : pool.baseOf 2 = some 0 := by decide
    rw [this] at h; cases h; simp
  · have : pool.baseOf 3 = some 1 := by decide
    rw [this] at h; cases h; simp

/-- The hypotheses of C37 hold, and the pool is not in order. -/
example : pool.ClassesOk ∧ pool.AcyclicClasses ∧ ¬ pool.BasesFirst := by
  refine ⟨⟨by decide, by decide, fun i b h h0 => ?_⟩, ⟨fun i => if i = 2 then 0 else if i = 1 then 1 else 2, fun i b h h0 => ?_⟩, ?_⟩
  · rcases index h with ⟨rfl, rfl⟩ | ⟨rfl, rfl⟩ | ⟨rfl, rfl⟩
    · exact ⟨0, by decide⟩
    · exact absurd rfl h0
    · exact ⟨2, by decide⟩
  · rcases index h with ⟨rfl, rfl⟩ | ⟨rfl, rfl⟩ | ⟨rfl, rfl⟩
    · decide
    · exact absurd rfl h0
    · decide
  · intro h
    exact absurd (h 1 2 (by decide) (by decide)) (by decide)

end CleanupDemo

end Redscript
