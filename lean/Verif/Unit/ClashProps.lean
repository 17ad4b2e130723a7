import Verif.Unit.ClashLoops
import Verif.Unit.ClashSymbols

/-!
# C72: clashing declarations are reported
-/

namespace Redscript
open DeclM

/-! ## The whole run -/

/-- The state before the first loop. -/
theorem clean_start {p : ConstantPool} (hn : p.names.Reachable Strings.cnameDefault) (hl : p.definitions.length ≤ 2 ^ 32)
    {s : DeclState} (h : DeclState.ofPool p = some s) (depth : Nat) : s.pool = p ∧ SymbolMap.ofPool p = some s.symbols ∧ s.diagnostics = [] ∧ Clean p depth true s := by
  unfold DeclState.ofPool at h
  cases h1 : SymbolMap.ofPool p with
  | none => rw [h1] at h; cases h
  | some m =>
    rw [h1] at h
    simp only [Option.bind_some] at h
    cases h2 : Scope.ofPool p with
    | none => rw [h2] at h; cases h
    | some sc =>
      rw [h2] at h
      simp only [Option.bind_some] at h
      have hsc : ScopeFits (FirstName [] p) sc := by
        unfold Scope.ofPool at h2
        rw [Option.map_eq_some_iff] at h2
        obtain ⟨ty, _, rfl⟩ := h2
        intro x sym hx
        have hx : (AMap.empty : AMap Text Symbol).get x = some sym := hx
        rw [AMap.get_empty] at hx; cases hx
      cases h3 : m.populateImport (.All []) .priv sc with
      | error e => rw [h3] at h; cases h
      | ok sc' =>
        rw [h3] at h
        cases h
        have hfit := hsc.import (firstPath_leads [] p) (first_symbols hl h1) h3
        refine ⟨rfl, rfl, rfl, hn, fun _ _ h => h, Nat.le_refl _, fun i d hd => ⟨d, hd, rfl⟩, fun _ _ h => h, fun i c hc => ⟨[], [], ?_, ?_, ?_⟩,
          fun x sym hx i hi hb _ => ((hfit x sym hx i hi).1 hb).2.2.notClass, fun _ i c hi hc => ?_⟩
        · rw [List.append_nil, List.append_nil]; exact hc
        · exact ⟨by simp, ⟨by simp, by simp⟩, by simp⟩
        · exact ⟨by simp, by simp, .inr (by simp), .inr (by simp)⟩
        · have := asClass_lt hc
          have hi : p.definitions.length ≤ i.toNat := hi
          have this : i.toNat < p.definitions.length := this
          omega

/-- The state after both loops. -/
theorem clean_end {p : ConstantPool} (hn : p.names.Reachable Strings.cnameDefault) (hm : MethodsExist p) (hmn : MembersNamed p)
    {s s' : DeclState} (hs : DeclState.ofPool p = some s) {depth : Nat} (hdepth : 0 < depth) {permissive : Bool} {ms : List SourceModule}
    (hclean : CleanFunctions ms) (hd : declareModules depth permissive ms s = (.ok (), s'))
    (hl : s'.pool.definitions.length ≤ 2 ^ 32) (hl' : s'.pool.names.strings.length + 1 < 2 ^ 32) : Clean p depth false s' := by
  have hroom : s'.Room := ⟨hl, hl'⟩
  have hd : DeclM.bind (defineModules ⟨ms.filterMap (·.path), depth, permissive⟩ ms)
      (fun queue => defineQueue ⟨ms.filterMap (·.path), depth, permissive⟩ queue []) s = (.ok (), s') := hd
  unfold DeclM.bind at hd
  cases hq : defineModules ⟨ms.filterMap (·.path), depth, permissive⟩ ms s with
  | mk r s1 =>
    rw [hq] at hd
    cases r with
    | error e => cases hd
    | ok qs =>
      have hd : defineQueue ⟨ms.filterMap (·.path), depth, permissive⟩ qs [] s1 = (.ok (), s') := hd
      have hlater := (AddsDefs.defineQueue ⟨ms.filterMap (·.path), depth, permissive⟩ qs []).later s1
      rw [hd] at hlater
      have hr1 := hlater.room hroom
      have hlater0 := (AddsDefs.defineModules ⟨ms.filterMap (·.path), depth, permissive⟩ ms).later s
      rw [hq] at hlater0
      have hr0 := hlater0.room hr1
      have hpl : p.definitions.length ≤ 2 ^ 32 := by
        have hp : s.pool = p := by
          unfold DeclState.ofPool at hs
          simp only [Option.bind_eq_some_iff] at hs
          obtain ⟨m, _, sc, _, hs⟩ := hs
          split at hs <;> cases hs
          rfl
        rw [← hp]; exact hr0.1
      obtain ⟨_, _, _, hstart⟩ := clean_start hn hpl hs depth
      obtain ⟨k1, _, _, k4⟩ := Tidy.defineModules (p0 := p) (depth := depth) hm hmn (cx := ⟨ms.filterMap (·.path), depth, permissive⟩) (s := s) hclean hstart (by rw [hq]; exact hr1)
      have hslots := k4 qs s1 hq
      rw [hq] at k1
      obtain ⟨k5, _⟩ := Tidy.defineQueue (p0 := p) (depth := depth) hmn (cx := ⟨ms.filterMap (·.path), depth, permissive⟩) rfl hdepth (seen := []) (s := s1) hslots k1.second (by rw [hd]; exact hroom)
      rw [hd] at k5
      exact k5

/-! ## C72 -/

/-- C72: `@addField` never gives a class a field with the name of a field that the class or one of its bases had, or of
another field added to the class; whether or not anything is reported. Missing: fields declared in one class body, and fields
added to a base after those of the classes below it (counterexamples). -/
theorem C72_added_fields_have_new_names_partial {p : ConstantPool} (hn : p.names.Reachable Strings.cnameDefault) (hm : MethodsExist p) (hmn : MembersNamed p)
    {s s' : DeclState} (hs : DeclState.ofPool p = some s) {depth : Nat} (hdepth : 0 < depth) {permissive : Bool} {ms : List SourceModule}
    (hclean : CleanFunctions ms) (hd : declareModules depth permissive ms s = (.ok (), s'))
    (hl : s'.pool.definitions.length ≤ 2 ^ 32) (hl' : s'.pool.names.strings.length + 1 < 2 ^ 32)
    {i : Idx} {c : ClassDef} (hc : p.definitionBy AnyDefinition.asClass i = some c) :
    ∃ c' added, s'.pool.definitionBy AnyDefinition.asClass i = some c' ∧ c'.base = c.base ∧ c'.fields = c.fields ++ added ∧
      NamedApart s'.pool added ∧ ∀ g ∈ added, ∀ t, s'.pool.defName g = some t → ¬ FieldAbove p depth i t := by
  obtain ⟨fs, gs, h1, h2, _⟩ := (clean_end hn hm hmn hs hdepth hclean hd hl hl').classes i c hc
  exact ⟨_, gs, h1, rfl, rfl, h2.apart, h2.above⟩

theorem named_at_most_one {p : ConstantPool} {t : Text} (ht : ¬ ForWrapper t) : ∀ {fs : List Idx},
    (fs.Pairwise fun f g => ∀ t, p.defName f = some t → p.defName g = some t → ForWrapper t) → (methodsNamed p t fs).length ≤ 1
  | [], _ => by simp [methodsNamed]
  | f :: fs, h => by
    obtain ⟨h1, h2⟩ := List.pairwise_cons.1 h
    have ih := named_at_most_one ht h2
    by_cases hf : p.defName f = some t
    · have : methodsNamed p t fs = [] := by
        unfold methodsNamed
        rw [List.filter_eq_nil_iff]
        intro g hg hgt
        exact ht (h1 g hg t hf (by simpa using hgt))
      unfold methodsNamed at this ⊢
      rw [List.filter_cons_of_pos (by simpa using hf), this]
      simp
    · unfold methodsNamed at ih ⊢
      rw [List.filter_cons_of_neg (by simpa using hf)]
      exact ih

/-- C72: without a report of a method that is added although it is there, a class has no two methods with the same
signature that it did not have before. Missing: global functions (counterexample). -/
theorem C72_added_methods_have_new_signatures_partial {p : ConstantPool} (hn : p.names.Reachable Strings.cnameDefault) (hm : MethodsExist p) (hmn : MembersNamed p)
    {s s' : DeclState} (hs : DeclState.ofPool p = some s) {depth : Nat} (hdepth : 0 < depth) {permissive : Bool} {ms : List SourceModule}
    (hclean : CleanFunctions ms) (hd : declareModules depth permissive ms s = (.ok (), s')) (hdiag : .addMethodConflict ∉ s'.diagnostics)
    (hl : s'.pool.definitions.length ≤ 2 ^ 32) (hl' : s'.pool.names.strings.length + 1 < 2 ^ 32)
    {i : Idx} {c : ClassDef} (hc : p.definitionBy AnyDefinition.asClass i = some c) :
    ∃ c', s'.pool.definitionBy AnyDefinition.asClass i = some c' ∧ c.functions <+: c'.functions ∧
      ∀ sig, ¬ ForWrapper sig → (methodsNamed s'.pool sig c'.functions).length ≤ max 1 (methodsNamed p sig c.functions).length := by
  have hend := clean_end hn hm hmn hs hdepth hclean hd hl hl'
  obtain ⟨fs, gs, h1, _, h3⟩ := hend.classes i c hc
  refine ⟨_, h1, List.prefix_append _ _, fun t ht => ?_⟩
  have ha := h3.apart.resolve_left hdiag
  have hnew := h3.new.resolve_left hdiag
  have hold : methodsNamed s'.pool t c.functions = methodsNamed p t c.functions := by
    unfold methodsNamed
    refine List.filter_congr fun j hj => ?_
    obtain ⟨u, hu⟩ := hmn i c hc j (.inl hj)
    rw [hu, hend.stay _ _ hu]
  show (methodsNamed s'.pool t (c.functions ++ fs)).length ≤ _
  have happ : methodsNamed s'.pool t (c.functions ++ fs) = methodsNamed s'.pool t c.functions ++ methodsNamed s'.pool t fs := by
    unfold methodsNamed; exact List.filter_append ..
  rw [happ, hold, List.length_append]
  have hone := named_at_most_one ht ha
  cases hfs : methodsNamed s'.pool t fs with
  | nil => simp; omega
  | cons f rest =>
    have hf : f ∈ fs ∧ s'.pool.defName f = some t := by
      have : f ∈ methodsNamed s'.pool t fs := by rw [hfs]; simp
      simpa [methodsNamed] using this
    have hnone : methodsNamed p t c.functions = [] := by
      unfold methodsNamed
      rw [List.filter_eq_nil_iff]
      intro g hg hgt
      exact ht (hnew f hf.1 g hg t hf.2 (by simpa using hgt))
    rw [hnone]
    rw [hfs] at hone
    simp only [List.length_cons, List.length_nil] at hone ⊢
    omega

/-- The table of a bundle has a class at a path if and only if the bundle does, unless something else has the same path. -/
theorem start_class {p : ConstantPool} {s : DeclState} (hs : DeclState.ofPool p = some s) :
    (∀ q it, FromPool p q it → it.IsClass → (∀ it', FromPool p q it' → it' = it) → s.classesAt q = 1) ∧
    ∀ q, s.classesAt q = 1 → ∃ it, FromPool p q it ∧ it.IsClass := by
  have h1 : SymbolMap.ofPool p = some s.symbols := by
    unfold DeclState.ofPool at hs
    simp only [Option.bind_eq_some_iff] at hs
    obtain ⟨m, h, sc, _, hs⟩ := hs
    split at hs <;> cases hs
    exact h
  have hwf := C17_tables_well_formed p _ h1
  have ht := tabled_ofPool h1
  refine ⟨fun q it hq hc hu => ?_, fun q hq => ?_⟩
  · obtain ⟨sym, hsym, hit⟩ := ht.2 q it hq fun it' h' => .inl (hu it' h')
    unfold DeclState.classesAt
    rw [(SymbolMap.get_eq_some hwf).2 hsym]
    cases sym with
    | Class i v => rfl
    | Struct i v => rfl
    | Enum i => simp [Symbol.items] at hit; subst hit; exact hc.elim
    | Functions fs =>
      simp only [Symbol.items, List.mem_map] at hit
      obtain ⟨_, _, rfl⟩ := hit
      exact hc.elim
  · unfold DeclState.classesAt at hq
    cases hg : s.symbols.get q with
    | none => rw [hg] at hq; cases hq
    | some sym =>
      have hmem := (SymbolMap.get_eq_some hwf).1 hg
      rw [hg] at hq
      cases sym with
      | Class i v => exact ⟨.cls i v, ht.1 q _ ⟨_, hmem, by simp [Symbol.items]⟩, trivial⟩
      | Struct i v => exact ⟨.struct i v, ht.1 q _ ⟨_, hmem, by simp [Symbol.items]⟩, trivial⟩
      | Enum i => cases hq
      | Functions fs => cases hq

theorem start_diags {p : ConstantPool} {s : DeclState} (hs : DeclState.ofPool p = some s) : s.diagnostics = [] := by
  unfold DeclState.ofPool at hs
  simp only [Option.bind_eq_some_iff] at hs
  obtain ⟨m, h, sc, _, hs⟩ := hs
  split at hs <;> cases hs
  rfl

/-- C72: two classes or structs that are declared under one path are reported, unless an enum or a function has the path too
(counterexample). -/
theorem C72_class_declared_twice_is_reported_partial {s s' : DeclState} {depth : Nat}
    {ms : List SourceModule} (hd : declareModules depth false ms s = (.ok (), s')) {q : ModulePath}
    (hq : ∀ e ∈ enabledIn ms, entryPath e = q → ¬ e.2.Hides) (htwo : 2 ≤ (classesAt (enabledIn ms) q).length) :
    .error .symbolRedefinition ∈ s'.diagnostics := by
  rcases (declareModules_counted hd).lower rfl q hq with h | h
  · exact h
  · have := s'.classesAt_le q; omega

/-- C72: a class or struct that is declared under the path of a class or struct of the bundle is reported, unless something else has
the path too (counterexample). -/
theorem C72_class_of_the_bundle_redeclared_is_reported_partial {p : ConstantPool} {s s' : DeclState} (hs : DeclState.ofPool p = some s) {depth : Nat}
    {ms : List SourceModule} (hd : declareModules depth false ms s = (.ok (), s')) {q : ModulePath} {it : Item}
    (hit : FromPool p q it) (hcls : it.IsClass) (honly : ∀ it', FromPool p q it' → it' = it)
    (hq : ∀ e ∈ enabledIn ms, entryPath e = q → ¬ e.2.Hides) (hone : 1 ≤ (classesAt (enabledIn ms) q).length) :
    .error .symbolRedefinition ∈ s'.diagnostics := by
  rcases (declareModules_counted hd).lower rfl q hq with h | h
  · exact h
  · have := s'.classesAt_le q
    have := (start_class hs).1 q it hit hcls honly
    omega

/-- C72: when a redefinition is reported, there is one: two classes or structs are declared under one path, or one is declared
under the path of a class or struct of the bundle; and redefinitions are not permitted. -/
theorem C72_reported_redefinitions_are_real {p : ConstantPool} {s s' : DeclState} (hs : DeclState.ofPool p = some s) {depth : Nat} {permissive : Bool}
    {ms : List SourceModule} (hd : declareModules depth permissive ms s = (.ok (), s')) (hdiag : .error .symbolRedefinition ∈ s'.diagnostics) :
    permissive = false ∧ ∃ q, 2 ≤ (classesAt (enabledIn ms) q).length ∨
      (1 ≤ (classesAt (enabledIn ms) q).length ∧ ∃ it, FromPool p q it ∧ it.IsClass) := by
  rcases (declareModules_counted hd).alarm hdiag with h | ⟨hp, q, hq⟩
  · rw [start_diags hs] at h; cases h
  · refine ⟨hp, q, ?_⟩
    have hle := s.classesAt_le q
    by_cases h : s.classesAt q = 1
    · exact .inr ⟨by omega, (start_class hs).2 q h⟩
    · exact .inl (by omega)

end Redscript
