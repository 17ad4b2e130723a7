import Verif.Names.Props
import Verif.Unit.DeclDoneSpec
import Verif.Unit.DeclTable

/-!
# Clashing declarations (specification)
-/

namespace Redscript

/-- The class `j` is reached from the class `i` by going to the base `k` times. -/
inductive Above (p : ConstantPool) : (k : Nat) → (i j : Idx) → Prop
  | here {i : Idx} : Above p 0 i i
  | up {k : Nat} {i j : Idx} {c : ClassDef} : p.definitionBy AnyDefinition.asClass i = some c → c.base ≠ 0 → Above p k c.base j →
      Above p (k + 1) i j

/-- Some class reached from `i` by going to the base fewer than `depth` times has a field called `t`. -/
def FieldAbove (p : ConstantPool) (depth : Nat) (i : Idx) (t : Text) : Prop :=
  ∃ k j c f, k < depth ∧ Above p k i j ∧ p.definitionBy AnyDefinition.asClass j = some c ∧ f ∈ c.fields ∧ p.defName f = some t

/-- All are named, and no two have the same name. -/
def NamedApart (p : ConstantPool) (l : List Idx) : Prop :=
  (∀ i ∈ l, ∃ t, p.defName i = some t) ∧ l.Pairwise fun i j => p.defName i ≠ p.defName j

/-- The names of the functions made for `@wrapMethod` begin like this. -/
def ForWrapper (t : Text) : Prop := "wrapper$".toList <+: t

/-- Members of classes have names. -/
def MembersNamed (p : ConstantPool) : Prop := ∀ i c, p.definitionBy AnyDefinition.asClass i = some c →
  ∀ j, j ∈ c.functions ∨ j ∈ c.fields → ∃ t, p.defName j = some t

/-- The methods called `t`. -/
def methodsNamed (p : ConstantPool) (t : Text) (l : List Idx) : List Idx := l.filter fun i => p.defName i = some t

/-- The names of the functions do not contain characters that mean something in signatures. -/
def CleanFunctions (ms : List SourceModule) : Prop := ∀ m ∈ ms, ∀ f, SourceEntry.Function f ∈ m.entries → CleanName f.declaration.name

/-- A class or struct. -/
def Item.IsClass : Item → Prop
  | .cls _ _ | .struct _ _ => True
  | _ => False

/-- The path of a declaration. -/
def entryPath (e : SourceModule × SourceEntry) : ModulePath := e.1.path.getD [] ++ [e.2.declaration.name]

/-- A class or struct is declared. -/
def SourceEntry.isClass : SourceEntry → Bool
  | .Class _ | .Struct _ => true
  | _ => false

/-- A declaration that can take the name of a class: an enum, or a function that is not put elsewhere by an annotation. -/
def SourceEntry.Hides : SourceEntry → Prop
  | .Enum _ => True
  | .Function f => f.placing = none
  | _ => False

/-- The classes and structs declared under the path. -/
def classesAt (l : List (SourceModule × SourceEntry)) (q : ModulePath) : List (SourceModule × SourceEntry) :=
  l.filter fun e => e.2.isClass && decide (entryPath e = q)

/-- The declarations of the sources whose conditions hold. -/
def enabledIn (ms : List SourceModule) : List (SourceModule × SourceEntry) := ms.flatMap (·.enabled (ms.filterMap (·.path)))

end Redscript
