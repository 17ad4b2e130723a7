import Verif.Unit.ClashProps

/-!
# C72: examples and counterexamples
-/

namespace Redscript
namespace DeclDemo

/-- The sources of a single file without a module. -/
def file (es : List SourceEntry) : List SourceModule := [⟨none, [], es⟩]

theorem pool_members : MembersNamed pool := by
  intro i c hc j hj
  have h : pool.definitions.all (fun d => match d.value with
      | .Class c => (c.functions ++ c.fields).all fun f => (pool.defName f).isSome
      | _ => true) = true := by decide +kernel
  obtain ⟨d, hd, hv⟩ := asClass_value hc
  have h1 := List.all_eq_true.1 h d (List.mem_of_getElem? hd)
  rw [hv] at h1
  exact Option.isSome_iff_exists.1 (List.all_eq_true.1 h1 j (List.mem_append.2 hj))

theorem run_of {ms : List SourceModule} (h : (declareModules 5 false ms start).1.toOption = some ()) :
    declareModules 5 false ms start = (.ok (), after ms) := by
  cases hd : declareModules 5 false ms start with
  | mk r s' =>
    rw [hd] at h
    cases r with
    | error e => cases h
    | ok a => unfold after; rw [hd]

/-- Fields for `Base` and `Sub`: `a` is in `Base` already, and `b` comes twice. -/
def fields : List SourceModule := file [
  .GlobalLet ⟨decl [ann .AddField "Base"] "b", int, none⟩,
  .GlobalLet ⟨decl [ann .AddField "Base"] "b", int, none⟩,
  .GlobalLet ⟨decl [ann .AddField "Sub"] "a", int, none⟩,
  .GlobalLet ⟨decl [ann .AddField "Sub"] "c", int, none⟩]

theorem clean_of {ms : List SourceModule} (h : ms.all (fun m => m.entries.all fun
    | .Function f => f.declaration.name.all fun c => c ≠ '<' && c ≠ '>' && c ≠ ',' && c ≠ ';'
    | _ => true) = true) : CleanFunctions ms := by
  intro m hm f hf c hc
  have h1 := List.all_eq_true.1 (List.all_eq_true.1 (List.all_eq_true.1 h m hm) _ hf) c hc
  simpa [and_assoc] using h1

/-- The names of the fields of a class. -/
def fieldNames (s : DeclState) (i : Idx) : List (Option String) :=
  ((s.pool.definitionBy AnyDefinition.asClass i).elim [] (·.fields)).map fun f => (s.pool.defName f).map String.ofList

/-- The names of the methods of a class. -/
def methodNames (s : DeclState) (i : Idx) : List (Option String) :=
  ((s.pool.definitionBy AnyDefinition.asClass i).elim [] (·.functions)).map fun f => (s.pool.defName f).map String.ofList

/-- Both classes get one field, and two conflicts are reported. -/
example : fieldNames (after fields) 1 = [some "a", some "b"] ∧ fieldNames (after fields) 4 = [some "c"] ∧
    (after fields).diagnostics = [.fieldConflict, .fieldConflict] := by decide +kernel

/-- The hypotheses hold for the sources. -/
example {i : Idx} {c : ClassDef} (hc : pool.definitionBy AnyDefinition.asClass i = some c) :
    ∃ c' added, (after fields).pool.definitionBy AnyDefinition.asClass i = some c' ∧ c'.base = c.base ∧ c'.fields = c.fields ++ added ∧
      NamedApart (after fields).pool added ∧ ∀ g ∈ added, ∀ t, (after fields).pool.defName g = some t → ¬ FieldAbove pool 5 i t :=
  C72_added_fields_have_new_names_partial names_reachable pool_methods pool_members start_eq (by decide) (clean_of (by decide +kernel))
    (run_of (by decide +kernel)) (by decide +kernel) (by decide +kernel) hc

/-- `Sub` has no field of its own; `a` is above it. -/
example : FieldAbove pool 5 4 "a".toList :=
  ⟨1, 1, _, 3, by decide, .up (c := ⟨.pub, 0, 1, [7], [], []⟩) (by decide +kernel) (by decide) .here, (by decide +kernel : _ = some ⟨.pub, 0, 0, [2], [3], []⟩),
    by decide, by decide +kernel⟩

/-- Two new methods, and two wrappers of the same method. -/
def methods : List SourceModule := file [
  .Function (func [ann .AddMethod "Base"] "k"),
  .Function (func [ann .AddMethod "Base"] "k" [⟨[], "x".toList, int⟩]),
  .Function (func [ann .WrapMethod "Base"] "m"),
  .Function (func [ann .WrapMethod "Base"] "m")]

/-- Wrappers get names of their own. Nothing is reported, so no two methods have the same signature. -/
example : methodNames (after methods) 1 = [some "m;", some "k;", some "k;Int32", some "wrapper$10", some "wrapper$11"] ∧
    (after methods).diagnostics = [] := by decide +kernel

example {i : Idx} {c : ClassDef} (hc : pool.definitionBy AnyDefinition.asClass i = some c) :
    ∃ c', (after methods).pool.definitionBy AnyDefinition.asClass i = some c' ∧ c.functions <+: c'.functions ∧
      ∀ sig, ¬ ForWrapper sig → (methodsNamed (after methods).pool sig c'.functions).length ≤ max 1 (methodsNamed pool sig c.functions).length :=
  C72_added_methods_have_new_signatures_partial names_reachable pool_methods pool_members start_eq (by decide) (clean_of (by decide +kernel))
    (run_of (by decide +kernel)) (by decide +kernel) (by decide +kernel) (by decide +kernel) hc

/-- The same signature twice is reported, and both are added. -/
example : methodNames (after (file [.Function (func [ann .AddMethod "Base"] "m")])) 1 = [some "m;", some "m;"] ∧
    (after (file [.Function (func [ann .AddMethod "Base"] "m")])).diagnostics = [.addMethodConflict] := by decide +kernel

/-- A class with a name. -/
def classNamed (x : String) (ms : List MemberSource := []) : SourceEntry := .Class ⟨decl [] x, none, ms⟩

/-- `New` twice, the second in another file. -/
def twiceNew : List SourceModule := file [classNamed "New"] ++ file [.Struct ⟨decl [] "New", none, []⟩, classNamed "Other"]

example : .error .symbolRedefinition ∈ (after twiceNew).diagnostics :=
  C72_class_declared_twice_is_reported_partial (q := ["New".toList]) (run_of (by decide +kernel))
    (fun e he => by
      have h : (enabledIn twiceNew).all (fun e => e.2.isClass) = true := by decide +kernel
      have h1 := List.all_eq_true.1 h e he
      intro _ hh
      cases hx : e.2 <;> rw [hx] at h1 hh <;> first | exact hh | cases h1) (by decide +kernel)

/-- `Base` again. -/
def againBase : List SourceModule := file [classNamed "Other", classNamed "Base"]

theorem base_only (it : Item) : FromPool pool ["Base".toList] it ↔ it = .cls 1 .pub := by
  have h : pool.roots.all (fun r => match pool.defName r.1 with
      | none => true
      | some t => decide (ModulePath.parse t = ["Base".toList] → r = (1, .mk' 1 0 (cls 0 [2] [3])))) = true := by decide +kernel
  constructor
  · rintro ⟨r, hr, t, ht, hq, hit⟩
    have h1 := List.all_eq_true.1 h r hr
    rw [ht] at h1
    have h2 := of_decide_eq_true h1 hq.symm
    subst h2
    exact hit
  · rintro rfl
    exact ⟨(1, .mk' 1 0 (cls 0 [2] [3])), by decide +kernel, "Base".toList, by decide +kernel, by decide +kernel, rfl⟩

example : .error .symbolRedefinition ∈ (after againBase).diagnostics :=
  C72_class_of_the_bundle_redeclared_is_reported_partial start_eq (q := ["Base".toList]) (it := .cls 1 .pub) (run_of (by decide +kernel))
    ((base_only _).2 rfl) trivial (fun it h => (base_only it).1 h)
    (fun e he => by
      have h : (enabledIn againBase).all (fun e => e.2.isClass) = true := by decide +kernel
      have h1 := List.all_eq_true.1 h e he
      intro _ hh
      cases hx : e.2 <;> rw [hx] at h1 hh <;> first | exact hh | cases h1) (by decide +kernel)

example : ∃ q, 2 ≤ (classesAt (enabledIn againBase) q).length ∨
    (1 ≤ (classesAt (enabledIn againBase) q).length ∧ ∃ it, FromPool pool q it ∧ it.IsClass) :=
  (C72_reported_redefinitions_are_real start_eq (run_of (ms := againBase) (by decide +kernel)) (by decide +kernel)).2

/-! ## What is not reported -/

/-- C72: a class with two fields of the same name goes through without a word. -/
theorem C72_field_declared_twice_counterexample :
    let s := after (file [classNamed "New" [.Field ⟨decl [] "x", int, none⟩, .Field ⟨decl [] "x", int, none⟩]])
    fieldNames s 8 = [some "x", some "x"] ∧ s.diagnostics = [] := by decide +kernel

/-- C72: an enum takes the name of a class of the bundle without a word. -/
theorem C72_enum_over_a_class_counterexample :
    let s := after (file [.Enum ⟨decl [] "Base", []⟩])
    start.symbols.get ["Base".toList] = some (.Class 1 .pub) ∧ s.symbols.get ["Base".toList] = some (.Enum 8) ∧ s.diagnostics = [] := by decide +kernel

/-- C72: two global functions with the same signature go through without a word. -/
theorem C72_function_declared_twice_counterexample :
    let s := after (file [.Function (func [] "h"), .Function (func [] "h")])
    s.symbols.get ["h".toList] = some (.Functions [(8, .priv), (9, .priv)]) ∧ s.pool.defName 8 = some "h;".toList ∧
      s.pool.defName 9 = some "h;".toList ∧ s.diagnostics = [] := by decide +kernel

/-- C72: a field added to a class is not compared with those of the classes below it. The other order is reported. -/
theorem C72_field_added_above_counterexample :
    let x (c : String) : SourceEntry := .GlobalLet ⟨decl [ann .AddField c] "x", int, none⟩
    fieldNames (after (file [x "Sub", x "Base"])) 1 = [some "a", some "x"] ∧ fieldNames (after (file [x "Sub", x "Base"])) 4 = [some "x"] ∧
      (after (file [x "Sub", x "Base"])).diagnostics = [] ∧ (after (file [x "Base", x "Sub"])).diagnostics = [.fieldConflict] := by decide +kernel

end DeclDemo
end Redscript
