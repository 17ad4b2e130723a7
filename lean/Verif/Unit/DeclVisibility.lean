import Verif.Unit.DeclDoneTheorems

/-!
# C62: members have the visibility they are declared with
-/

namespace Redscript

theorem Each2.mem_left {R : α → β → Prop} {as : List α} {bs : List β} (h : Each2 R as bs) {a : α} (ha : a ∈ as) : ∃ b ∈ bs, R a b := by
  induction h with
  | nil => cases ha
  | cons h1 _ ih =>
    rcases List.mem_cons.1 ha with rfl | ha
    · exact ⟨_, List.mem_cons_self, h1⟩
    · obtain ⟨b, h2, h3⟩ := ih ha
      exact ⟨b, List.mem_cons_of_mem _ h2, h3⟩

theorem Each2.mono_left {R R' : α → β → Prop} {as : List α} {bs : List β} (h : Each2 R as bs) (hr : ∀ a ∈ as, ∀ b, R a b → R' a b) :
    Each2 R' as bs := by
  induction h with
  | nil => exact .nil
  | cons h1 _ ih => exact .cons (hr _ List.mem_cons_self _ h1) (ih fun a ha => hr a (List.mem_cons_of_mem _ ha))

/-- The function under the index has the signature and visibility that are written. -/
def VisibleFunction (p : ConstantPool) (i : Idx) (f : FunctionSource) : Prop :=
  p.defName i = some f.sig ∧ ∃ g, p.function i = some g ∧ g.visibility = visibilityOf f.declaration.qualifiers

/-- The field under the index has the name and visibility that are written. -/
def VisibleField (p : ConstantPool) (i : Idx) (f : FieldSource) : Prop :=
  p.defName i = some f.declaration.name ∧ ∃ d g, p.definition i = some d ∧ d.value = .Field g ∧ g.visibility = visibilityOf f.declaration.qualifiers

/-- C62: what `@addMethod`, `@replaceMethod`, `@addField` and module functions declare has the visibility they
are declared with. Missing from the full statement: members in the body of a class. -/
theorem C62_added_members_have_their_visibility {p : ConstantPool} (hn : p.names.Reachable Strings.cnameDefault) (hm : MethodsExist p)
    (ht : TypeShape p) {s s' : DeclState} (hs : DeclState.ofPool p = some s) {depth : Nat} {permissive : Bool} {ms : List SourceModule}
    (hd : declareModules depth permissive ms s = (.ok (), s')) (hdiag : s'.diagnostics = [])
    (hl : s'.pool.definitions.length ≤ 2 ^ 32) (hl' : s'.pool.names.strings.length + 1 < 2 ^ 32) {m : SourceModule} (hmod : m ∈ ms) :
    (∀ f, .Function f ∈ m.entries → f.declaration.Enabled (ms.filterMap (·.path)) = true →
      ∃ i g, s'.pool.function i = some g ∧ g.visibility = visibilityOf f.declaration.qualifiers ∧
        (f.placing.map (·.kind) = some .AddMethod ∨ f.placing.map (·.kind) = some .ReplaceMethod → VisibleFunction s'.pool i f)) ∧
    (∀ f, .GlobalLet f ∈ m.entries → f.declaration.Enabled (ms.filterMap (·.path)) = true →
      ∃ i cls c, VisibleField s'.pool i f ∧ s'.pool.definitionBy AnyDefinition.asClass cls = some c ∧ i ∈ c.fields) := by
  obtain ⟨is, _, h⟩ := C61_declarations_reach_the_pool hn hm ht hs hd hdiag hl hl'
  have key : ∀ e, e ∈ m.entries → e.declaration.Enabled (ms.filterMap (·.path)) = true →
      ∃ i, IsDeclared p s' (ms.filterMap (·.path)) m e i := by
    intro e he hon
    obtain ⟨i, _, hi⟩ := h.mem_left (a := (m, e)) (List.mem_flatMap.2 ⟨m, hmod, List.mem_map.2 ⟨e, List.mem_filter.2 ⟨he, hon⟩, rfl⟩⟩)
    exact ⟨i, hi⟩
  constructor
  · intro f hf hon
    obtain ⟨i, at_, rfl, hput, g, h1, h2, _⟩ := key _ hf hon
    refine ⟨at_.index, g, h1.function, h2.1.trans hput.1, fun hk => ⟨?_, g, h1.function, h2.1.trans hput.1⟩⟩
    have hput := hput.2
    cases ha : f.placing with
    | none => rw [ha] at hk; simp at hk
    | some a =>
      rw [ha] at hk hput
      simp only [Option.map_some, Option.some.injEq] at hk hput
      have hname : at_.name = f.sig := by
        rcases hk with hk | hk <;> rw [hk] at hput
        · exact hput.2.1
        · exact hput.1
      rw [h1.1, hname]
  · intro f hf hon
    obtain ⟨i, _, a, cls, _, _, ⟨g, ⟨h1, d, h2, h3, h4⟩, h5, _⟩, c, h6, h7⟩ := key _ hf hon
    exact ⟨i, cls, c, ⟨h1, d, g, h2, h4, h5⟩, h6, h7⟩

/-- C62: the members of a class have the visibility they are declared with if that is the visibility of the
class. Missing from the full statement: members declared with another visibility. -/
theorem C62_members_have_their_visibility_partial {p : ConstantPool} (hn : p.names.Reachable Strings.cnameDefault) (hm : MethodsExist p)
    (ht : TypeShape p) {s s' : DeclState} (hs : DeclState.ofPool p = some s) {depth : Nat} {permissive : Bool} {ms : List SourceModule}
    (hd : declareModules depth permissive ms s = (.ok (), s')) (hdiag : s'.diagnostics = [])
    (hl : s'.pool.definitions.length ≤ 2 ^ 32) (hl' : s'.pool.names.strings.length + 1 < 2 ^ 32) {m : SourceModule} (hmod : m ∈ ms)
    {c : ClassSource} (hc : .Class c ∈ m.entries ∨ .Struct c ∈ m.entries) (hon : c.declaration.Enabled (ms.filterMap (·.path)) = true)
    (hf : ∀ f ∈ methodsOn (ms.filterMap (·.path)) c.members, visibilityOf f.declaration.qualifiers = visibilityOf c.declaration.qualifiers)
    (hg : ∀ f ∈ fieldsOn (ms.filterMap (·.path)) c.members, visibilityOf f.declaration.qualifiers = visibilityOf c.declaration.qualifiers) :
    ∃ i d own added, s'.pool.definitionBy AnyDefinition.asClass i = some d ∧
      Each2 (fun f j => VisibleFunction s'.pool j f) (methodsOn (ms.filterMap (·.path)) c.members) d.functions ∧
      d.fields = own ++ added ∧ Each2 (fun f j => VisibleField s'.pool j f) (fieldsOn (ms.filterMap (·.path)) c.members) own := by
  obtain ⟨is, _, h⟩ := C61_declarations_reach_the_pool hn hm ht hs hd hdiag hl hl'
  have key : ∀ e, e ∈ m.entries → e.declaration.Enabled (ms.filterMap (·.path)) = true →
      ∃ i, IsDeclared p s' (ms.filterMap (·.path)) m e i := by
    intro e he hon
    obtain ⟨i, _, hi⟩ := h.mem_left (a := (m, e)) (List.mem_flatMap.2 ⟨m, hmod, List.mem_map.2 ⟨e, List.mem_filter.2 ⟨he, hon⟩, rfl⟩⟩)
    exact ⟨i, hi⟩
  have hcls : ∃ i b, IsClass s' (m.Sees s' (ms.filterMap (·.path))) (ms.filterMap (·.path)) i (m.path.getD []) c b := by
    rcases hc with hc | hc
    · obtain ⟨i, hi⟩ := key _ hc hon; exact ⟨i, false, hi.2⟩
    · obtain ⟨i, hi⟩ := key _ hc hon; exact ⟨i, true, hi.2⟩
  obtain ⟨i, b, d, own, added, ⟨_, e, h1, _, h2⟩, _, _, _, _, _, _, h3, h4, h5, _⟩ := hcls
  refine ⟨i, d, own, added, value_asClass h1 h2, ?_, h4, ?_⟩
  · refine h3.mono_left fun f hj j ⟨g, k1, k2, _⟩ => ⟨k1.1, g, k1.function, ?_⟩
    rw [k2.1, hf f hj]
  · refine h5.mono_left fun f hj j ⟨g, ⟨k1, e, k2, k3, k4⟩, k5, _⟩ => ⟨k1, e, g, k2, k4, ?_⟩
    rw [k5, hg f hj]

namespace DeclDemo

/-- A public class with public members, beside members that are added with another visibility. -/
def visible : List SourceModule := [⟨none, [], [
  .Class ⟨decl [] "P" [.Public], some "Sub".toList, [.Field ⟨decl [] "c" [.Public], int, none⟩, .Function ⟨decl [] "f" [.Public], none, [], some []⟩]⟩,
  .Function ⟨decl [ann .AddMethod "Base"] "k" [.Protected], none, [], some []⟩,
  .GlobalLet ⟨decl [ann .AddField "Base"] "b", int, none⟩]⟩]

example : (declareModules 5 false visible start).1.toOption = some () ∧ (after visible).diagnostics = [] ∧
    (after visible).pool.definitions.length ≤ 2 ^ 32 ∧ (after visible).pool.names.strings.length + 1 < 2 ^ 32 ∧
    ((after visible).pool.function 9).map (·.visibility) = some .prot ∧
    ((after visible).pool.definition 10).bind (fun d => match d.value with | .Field g => some g.visibility | _ => none) = some .priv := by
  decide +kernel

/-- A public class with a private field and a private method. -/
def hidden : List SourceModule := [⟨none, [], [
  .Class ⟨decl [] "P" [.Public], some "Sub".toList, [.Field ⟨decl [] "c" [.Private], int, none⟩, .Function ⟨decl [] "f" [.Private], none, [], some []⟩]⟩]⟩]

/-- C62: the full statement fails: the private members of a public class are public in the pool, and nothing is reported. -/
theorem C62_member_visibility_counterexample : (declareModules 5 false hidden start).1.toOption = some () ∧ (after hidden).diagnostics = [] ∧
    ((after hidden).pool.definitionBy AnyDefinition.asClass 8).map (fun c => (c.functions, c.fields)) = some ([10], [9]) ∧
    ((after hidden).pool.function 10).map (·.visibility) = some .pub ∧
    ((after hidden).pool.definition 9).bind (fun d => match d.value with | .Field g => some g.visibility | _ => none) = some .pub := by
  decide +kernel

end DeclDemo
end Redscript
