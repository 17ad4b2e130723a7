import Verif.Unit.DeclFrame
import Verif.Unit.DeclDemo

/-!
# C60: declarations only touch what they name
-/

namespace Redscript

/-- C60: whatever the sources declare, and whether or not it succeeds, every definition that was in the pool
before is the same as it was, or a class with new members that an annotation asks for, or a function that an
annotation with its class and signature replaces. -/
theorem C60_declarations_touch_only_what_they_name {p : ConstantPool} (hn : AllNamed p) {s : DeclState}
    (hs : DeclState.ofPool p = some s) {depth : Nat} {permissive : Bool} {ms : List SourceModule}
    (hl : (declareModules depth permissive ms s).2.pool.definitions.length ≤ 2 ^ 32) {i : Idx} {d : Definition}
    (hd : p.definition i = some d) : ∃ d', (declareModules depth permissive ms s).2.pool.definition i = some d' ∧
      (d' = d ∨ Extended p ms i d d' ∨ Replaced p ms i d d') := by
  obtain ⟨d', h1, h2⟩ := (declareModules_inv hn (ofPool_inv hs) hl).old i d hd
  refine ⟨d', h1, ?_⟩
  rcases h2 with h | h | ⟨_, h⟩
  · exact .inl h
  · exact .inr (.inl h)
  · exact .inr (.inr h)

/-- C60: the definitions keep their names. -/
theorem C60_declarations_keep_names {p : ConstantPool} (hn : AllNamed p) {s : DeclState}
    (hs : DeclState.ofPool p = some s) {depth : Nat} {permissive : Bool} {ms : List SourceModule}
    (hl : (declareModules depth permissive ms s).2.pool.definitions.length ≤ 2 ^ 32) {i : Idx} {t : Text}
    (ht : p.defName i = some t) : (declareModules depth permissive ms s).2.pool.defName i = some t :=
  (declareModules_inv hn (ofPool_inv hs) hl).defName ht

/-- C60: sources in which no enabled declaration has one of the annotations that change a definition leave
every definition as it was. -/
theorem C60_plain_sources_change_nothing {p : ConstantPool} (hn : AllNamed p) {s : DeclState}
    (hs : DeclState.ofPool p = some s) {depth : Nat} {permissive : Bool} {ms : List SourceModule}
    (hl : (declareModules depth permissive ms s).2.pool.definitions.length ≤ 2 ^ 32)
    (hp : ∀ e, Declares ms e → ∀ a ∈ e.declaration.annotations, a.kind = .If ∨ a.kind = .RuntimeProperty)
    {i : Idx} {d : Definition} (hd : p.definition i = some d) :
    (declareModules depth permissive ms s).2.pool.definition i = some d := by
  obtain ⟨d', h1, h2⟩ := C60_declarations_touch_only_what_they_name hn hs hl hd
  rw [h1]
  have key : ∀ e k x, Declares ms e → e.declaration.Targets k x → k = .If ∨ k = .RuntimeProperty := by
    intro e k x he ⟨a, ha, hk, _⟩
    rw [← hk]; exact hp e he a ha
  rcases h2 with rfl | ⟨c, fs, gs, hv, rfl, _, _, ha, hb⟩ | ⟨f, parent, g, hf, ⟨_, h⟩, _⟩
  · rfl
  · have hfs : fs = [] := Classical.byContradiction fun h => by
      obtain ⟨f, x, hf, ht, _⟩ := ha h
      rcases ht with ht | ht
      · rcases key _ _ _ hf ht with h | h <;> cases h
      · rcases key _ _ _ hf ht with h | h <;> cases h
    have hgs : gs = [] := Classical.byContradiction fun h => by
      obtain ⟨f, x, hf, ht, _⟩ := hb h
      rcases key _ _ _ hf ht with h | h <;> cases h
    subst hfs hgs
    simp only [List.append_nil]
    rw [← hv]
  · rcases h with ⟨x, c, ht, _⟩ | ⟨⟨a, ha, hk⟩, _⟩
    · rcases key _ _ _ hf ht with h | h <;> cases h
    · rcases hp _ hf a ha with h | h <;> rw [hk] at h <;> cases h

namespace DeclDemo

theorem start_eq : DeclState.ofPool pool = some start := by
  have h : (DeclState.ofPool pool).isSome = true := by decide +kernel
  obtain ⟨s, hs⟩ := Option.isSome_iff_exists.1 h
  unfold start
  rw [hs]; rfl

theorem pool_named : AllNamed pool := by
  intro i d hd
  have h : (List.range 8).all (fun n => (pool.defName (BitVec.ofNat 32 n)).isSome) = true := by decide +kernel
  have := List.all_eq_true.1 h i.toNat (List.mem_range.2 (definition_lt hd))
  rw [BitVec.ofNat_toNat, BitVec.setWidth_eq] at this
  exact Option.isSome_iff_exists.1 this

/-- The sources of the example go through, and of the old definitions only those they name have changed: `Base`
(1) has two more methods and a field, `m` of `Sub` (7) is another function that overrides the same method. -/
example : (declareModules 5 false sources start).1.toOption = some () ∧
    (after sources).diagnostics = [] ∧ (after sources).pool.definitions.length ≤ 2 ^ 32 ∧
    (List.range 8).filter (fun n => (after sources).pool.definitions[n]? ≠ pool.definitions[n]?) = [1, 7] ∧
    (after sources).pool.definitionBy AnyDefinition.asClass 1 =
      some { visibility := .pub, flags := 0, base := 0, functions := [2, 9, 10], fields := [3, 11], overrides := [] } ∧
    ((after sources).pool.function 7).map (fun f => (f.visibility, f.baseMethod, f.code)) = some (.priv, some 2, []) ∧
    (after sources).pool.defName 10 = some "k;Int32".toList := by decide +kernel

end DeclDemo
end Redscript
