import Verif.Unit.DeclSpec
import Verif.Bundle.PoolProps
import Verif.Definition.Props
import Verif.Unit.WrapProps

/-!
# The invariant of the declaration phase
-/

namespace Redscript
open DeclM

/-- The definition at an index that was in use before. `first` is true during the first loop, in which nothing
is replaced. -/
def KeptAs (p0 : ConstantPool) (ms : List SourceModule) (first : Bool) (i : Idx) (d d' : Definition) : Prop :=
  d' = d ∨ Extended p0 ms i d d' ∨ (first = false ∧ Replaced p0 ms i d d')

/-- What is known of the pool, compared with the pool `p0` before. -/
structure PoolInv (p0 : ConstantPool) (ms : List SourceModule) (first : Bool) (p : ConstantPool) : Prop where
  size : p0.definitions.length ≤ p.definitions.length
  names : ∀ k t, p0.names.get Strings.cnameDefault k = some t → p.names.get Strings.cnameDefault k = some t
  old : ∀ i d, p0.definition i = some d → ∃ d', p.definition i = some d' ∧ KeptAs p0 ms first i d d'
  fresh : first = true → ∀ i d, p0.definitions.length ≤ i.toNat → p.definition i = some d → d.value.asClass = none

/-- The definitions a symbol stands for. -/
def Symbol.indexes : Symbol → List Idx
  | .Class i _ | .Struct i _ | .Enum i => [i]
  | .Functions fs => fs.map (·.1)

/-- Old definitions are known under their paths. -/
def SymbolsKnown (p0 : ConstantPool) (m : SymbolMap) : Prop :=
  ∀ e ∈ m.entries, ∀ i ∈ e.2.indexes, i.toNat < p0.definitions.length →
    ∃ t, p0.defName i = some t ∧ ModulePath.parse t = e.1

/-- Old definitions are known under the last parts of their names. -/
def ScopeKnown (p0 : ConstantPool) (sc : Scope) : Prop :=
  ∀ x sym, sc.symbols.get x = some sym → ∀ i ∈ sym.indexes, i.toNat < p0.definitions.length → LastName p0 i x

/-- What is known of the state. -/
structure DeclInv (p0 : ConstantPool) (ms : List SourceModule) (first : Bool) (s : DeclState) : Prop where
  pool : PoolInv p0 ms first s.pool
  symbols : SymbolsKnown p0 s.symbols
  scope : ScopeKnown p0 s.scope
  module : ScopeKnown p0 s.moduleScope

/-! ## Names and kinds of old definitions -/

theorem definition_of_lt {p : ConstantPool} {i : Idx} (h : i.toNat < p.definitions.length) :
    ∃ d, p.definition i = some d := ⟨_, List.getElem?_eq_some_iff.2 ⟨h, rfl⟩⟩

theorem KeptAs.name {p0 : ConstantPool} {ms : List SourceModule} {first : Bool} {i : Idx} {d d' : Definition}
    (h : KeptAs p0 ms first i d d') : d'.name = d.name := by
  rcases h with rfl | ⟨c, fs, gs, _, rfl, _⟩ | ⟨_, f, parent, g, _, _, rfl, _⟩ <;> rfl

namespace PoolInv

variable {p0 : ConstantPool} {ms : List SourceModule} {first : Bool} {p : ConstantPool}

theorem refl (p0 : ConstantPool) (ms : List SourceModule) : PoolInv p0 ms true p0 where
  size := Nat.le_refl _
  names := fun _ _ h => h
  old := fun _ d h => ⟨d, h, .inl rfl⟩
  fresh := fun _ _ _ hi h => absurd (definition_lt h) (Nat.not_lt.2 hi)

/-- What holds in the first loop holds in the second. -/
theorem second (h : PoolInv p0 ms first p) : PoolInv p0 ms false p where
  size := h.size
  names := h.names
  old := fun i d hd => by
    obtain ⟨d', h1, h2⟩ := h.old i d hd
    refine ⟨d', h1, ?_⟩
    rcases h2 with h2 | h2 | h2
    · exact .inl h2
    · exact .inr (.inl h2)
    · exact .inr (.inr ⟨rfl, h2.2⟩)
  fresh := fun hf => by cases hf

theorem old_lt (h : PoolInv p0 ms first p) {i : Idx} (hi : i.toNat < p0.definitions.length) :
    ∃ d d', p0.definition i = some d ∧ p.definition i = some d' ∧ KeptAs p0 ms first i d d' := by
  obtain ⟨d, hd⟩ := definition_of_lt hi
  obtain ⟨d', h1, h2⟩ := h.old i d hd
  exact ⟨d, d', hd, h1, h2⟩

/-- Old definitions keep their names. -/
theorem defName (h : PoolInv p0 ms first p) {i : Idx} {t : Text} (ht : p0.defName i = some t) : p.defName i = some t := by
  unfold ConstantPool.defName at ht ⊢
  cases hd : p0.definition i with
  | none => rw [hd] at ht; cases ht
  | some d =>
    rw [hd] at ht
    obtain ⟨d', h1, h2⟩ := h.old i d hd
    rw [h1]
    simp only [Option.bind_some, Option.map_eq_some_iff] at ht ⊢
    obtain ⟨u, hu, rfl⟩ := ht
    exact ⟨u, by rw [h2.name]; exact h.names _ _ hu, rfl⟩

/-- A new name. -/
theorem addName (h : PoolInv p0 ms first p) (t : String) :
    PoolInv p0 ms first { p with names := (p.names.add Strings.cnameDefault t).2 } where
  size := h.size
  names := fun k u hu => C11_add_keeps _ _ _ _ _ (h.names k u hu)
  old := h.old
  fresh := h.fresh

/-- New definitions that are no classes. -/
theorem append (h : PoolInv p0 ms first p) (ds : List Definition) (hds : ∀ d ∈ ds, d.value.asClass = none) :
    PoolInv p0 ms first { p with definitions := p.definitions ++ ds } where
  size := by simp only [List.length_append]; exact Nat.le_trans h.size (Nat.le_add_right _ _)
  names := h.names
  old := fun i d hd => by
    obtain ⟨d', h1, h2⟩ := h.old i d hd
    refine ⟨d', ?_, h2⟩
    unfold ConstantPool.definition at h1 ⊢
    rw [List.getElem?_append_left (definition_lt h1)]; exact h1
  fresh := fun hf i d hi hd => by
    unfold ConstantPool.definition at hd
    by_cases hlt : i.toNat < p.definitions.length
    · simp only [List.getElem?_append_left hlt] at hd
      exact h.fresh hf i d hi hd
    · simp only [List.getElem?_append_right (Nat.not_lt.1 hlt)] at hd
      exact hds d (List.mem_of_getElem? hd)

/-- A new definition is replaced. -/
theorem set_new (h : PoolInv p0 ms first p) (i : Idx) (d : Definition) (hi : p0.definitions.length ≤ i.toNat)
    (hd : first = true → d.value.asClass = none) :
    PoolInv p0 ms first { p with definitions := p.definitions.set i.toNat d } where
  size := by simp only [List.length_set]; exact h.size
  names := h.names
  old := fun j e he => by
    obtain ⟨d', h1, h2⟩ := h.old j e he
    refine ⟨d', ?_, h2⟩
    unfold ConstantPool.definition at h1 ⊢
    rw [List.getElem?_set_ne (by have := definition_lt he; omega)]; exact h1
  fresh := fun hf j e hj he => by
    unfold ConstantPool.definition at he
    by_cases hij : i.toNat = j.toNat
    · simp only [List.getElem?_set, hij, if_true] at he
      split at he
      · cases he; exact hd hf
      · cases he
    · rw [List.getElem?_set_ne hij] at he
      exact h.fresh hf j e hj he

/-- An old definition is replaced. -/
theorem set_old (h : PoolInv p0 ms first p) (i : Idx) (d : Definition) (hi : i.toNat < p0.definitions.length)
    (hd : ∀ d0, p0.definition i = some d0 → KeptAs p0 ms first i d0 d) :
    PoolInv p0 ms first { p with definitions := p.definitions.set i.toNat d } where
  size := by simp only [List.length_set]; exact h.size
  names := h.names
  old := fun j e he => by
    by_cases hij : i = j
    · subst hij
      refine ⟨d, ?_, hd e he⟩
      unfold ConstantPool.definition
      simp only [List.getElem?_set]
      rw [if_pos trivial, if_pos (Nat.lt_of_lt_of_le hi h.size)]
    · obtain ⟨d', h1, h2⟩ := h.old j e he
      refine ⟨d', ?_, h2⟩
      unfold ConstantPool.definition at h1 ⊢
      rw [List.getElem?_set_ne (fun hc => hij (BitVec.eq_of_toNat_eq hc))]; exact h1
  fresh := fun hf j e hj he => by
    unfold ConstantPool.definition at he
    rw [List.getElem?_set_ne (by omega)] at he
    exact h.fresh hf j e hj he

/-- The class an old index stands for. -/
theorem oldClass (h : PoolInv p0 ms first p) {i : Idx} {c' : ClassDef} (hi : i.toNat < p0.definitions.length)
    (hc : p.definitionBy AnyDefinition.asClass i = some c') :
    ∃ d0 c fs gs, p0.definition i = some d0 ∧ d0.value = .Class c ∧
      p.definition i = some { d0 with value := .Class c' } ∧
      c' = { c with functions := c.functions ++ fs, fields := c.fields ++ gs } ∧
      (∀ f ∈ fs, p0.definitions.length ≤ f.toNat) ∧ (∀ g ∈ gs, p0.definitions.length ≤ g.toNat) ∧
      (fs ≠ [] → MethodsAdded p0 ms i) ∧ (gs ≠ [] → FieldsAdded p0 ms i) := by
  obtain ⟨d, d', h0, h1, h2⟩ := h.old_lt hi
  have hv : d'.value = .Class c' := by
    unfold ConstantPool.definitionBy at hc
    have h1' : p.definitions[i.toNat]? = some d' := h1
    rw [h1'] at hc
    simp only [Option.bind_some] at hc
    cases hv : d'.value <;> rw [hv] at hc <;> simp only [AnyDefinition.asClass, reduceCtorEq, Option.some.injEq] at hc
    rw [hc]
  rcases h2 with rfl | ⟨c, fs, gs, hdv, rfl, hfs, hgs, ha, hb⟩ | ⟨_, f, parent, g, _, _, rfl, _⟩
  · refine ⟨d', c', [], [], h0, hv, ?_, by simp, by simp, by simp, by simp, by simp⟩
    rw [h1, ← hv]
  · simp only [AnyDefinition.Class.injEq] at hv
    exact ⟨d, c, fs, gs, h0, hdv, by rw [h1, hv], hv.symm, hfs, hgs, ha, hb⟩
  · simp only [Definition.mk', reduceCtorEq] at hv

/-- Members are added to a class. -/
theorem onClass (h : PoolInv p0 ms first p) {i : Idx} {f : ClassDef → ClassDef} {p' : ConstantPool}
    (hp : p.modifyValue (AnyDefinition.onClass f) i = some p') (fs gs : List Idx)
    (hf : f = fun c => { c with functions := c.functions ++ fs, fields := c.fields ++ gs })
    (hfs : ∀ f ∈ fs, p0.definitions.length ≤ f.toNat) (hgs : ∀ g ∈ gs, p0.definitions.length ≤ g.toNat)
    (ha : i.toNat < p0.definitions.length → fs ≠ [] → MethodsAdded p0 ms i)
    (hb : i.toNat < p0.definitions.length → gs ≠ [] → FieldsAdded p0 ms i) : PoolInv p0 ms first p' := by
  unfold ConstantPool.modifyValue at hp
  cases hd : p.definitions[i.toNat]? with
  | none => rw [hd] at hp; cases hp
  | some d =>
    rw [hd] at hp
    simp only [Option.bind_some, Option.map_eq_some_iff] at hp
    obtain ⟨v, hv, rfl⟩ := hp
    cases hval : d.value <;> rw [hval] at hv <;> simp only [AnyDefinition.onClass, reduceCtorEq, Option.some.injEq] at hv
    rename_i c'
    subst hv
    by_cases hi : i.toNat < p0.definitions.length
    · refine h.set_old i _ hi fun d0 h0 => ?_
      have hc : p.definitionBy AnyDefinition.asClass i = some c' := by
        unfold ConstantPool.definitionBy
        rw [hd]; simp only [Option.bind_some, hval, AnyDefinition.asClass]
      obtain ⟨d1, c, fs1, gs1, k0, k1, k2, rfl, k3, k4, k5, k6⟩ := h.oldClass hi hc
      rw [h0] at k0
      cases k0
      have hde : d = { d0 with value := .Class { c with functions := c.functions ++ fs1, fields := c.fields ++ gs1 } } := by
        have : p.definition i = some d := hd
        rw [this] at k2; exact Option.some.inj k2
      refine .inr (.inl ⟨c, fs1 ++ fs, gs1 ++ gs, k1, ?_, ?_, ?_, ?_, ?_⟩)
      · rw [hde, hf]; simp only [List.append_assoc]
      · intro x hx; rcases List.mem_append.1 hx with hx | hx
        · exact k3 x hx
        · exact hfs x hx
      · intro x hx; rcases List.mem_append.1 hx with hx | hx
        · exact k4 x hx
        · exact hgs x hx
      · intro hne
        by_cases hz : fs1 = []
        · subst hz; exact ha hi (by simpa using hne)
        · exact k5 hz
      · intro hne
        by_cases hz : gs1 = []
        · subst hz; exact hb hi (by simpa using hne)
        · exact k6 hz
    · refine h.set_new i _ (Nat.not_lt.1 hi) fun hfirst => ?_
      exfalso
      have := h.fresh hfirst i d (Nat.not_lt.1 hi) hd
      rw [hval] at this
      simp only [AnyDefinition.asClass, reduceCtorEq] at this

end PoolInv
end Redscript
